import Verif.Model.Dispatch

/-!
# Specification of the setters: what a user expects after a history of calls
-/

namespace Libcmaes.Spec

/-- Calls on fixed parameters. -/
inductive FixCall where
  | set (index : ℕ) (value : ℝ)
  | unset (index : ℕ)

/-- What the user expects for coordinate `i` after `h`: the last call on `i` decides. -/
noncomputable def expectFixed (i : ℕ) (h : List FixCall) : Option ℝ :=
  h.foldl (fun acc c => match c with
    | .set j v => if j = i then some v else acc
    | .unset j => if j = i then none else acc) none

/-- Executing the calls. -/
noncomputable def runFix {n : ℕ} (p : Params n) (h : List FixCall) : Params n :=
  h.foldl (fun q c => match c with
    | .set j v => q.setFixedP j v
    | .unset j => q.unsetFixedP j) p

/-- No coordinate is set while it is already fixed. -/
def NoRefix (h : List FixCall) : Prop :=
  ∀ a i v b, h = a ++ FixCall.set i v :: b → expectFixed i a = none

/-- Expected state of a stopping criterion after a history of `set_stopping_criteria` calls:
the last call on it, if any. -/
def expectCrit (c : ℤ) (h : List (ℤ × Bool)) : Option Bool :=
  h.foldl (fun acc q => if q.1 = c then some q.2 else acc) none

/-- Executing the calls. -/
def runCrit {n : ℕ} (p : Params n) (h : List (ℤ × Bool)) : Params n :=
  h.foldl (fun q c => q.setStoppingCriteria c.1 c.2) p

/-- The elitism mode the user expects: the last documented value passed (initially 0). -/
def expectElitism (h : List ℤ) : ℤ :=
  h.foldl (fun acc e => if 0 ≤ e ∧ e ≤ 3 then e else acc) 0

/-- Executing the calls. -/
def runElitism {n : ℕ} (p : Params n) (h : List ℤ) : Params n :=
  h.foldl (fun q e => q.setElitism e) p

/-- Exactly the switch of mode `e` is on: 0 none, 1 elitism, 2 initial elitism, 3 initial elitism on
restart (documentation at include/libcmaes/cmaparameters.h:233-242). -/
def ElitismMode {n : ℕ} (p : Params n) (e : ℤ) : Prop :=
  (p.elitist = true ↔ e = 1) ∧ (p.initialElitist = true ↔ e = 2) ∧
    (p.initialElitistOnRestart = true ↔ e = 3)

/-- The documented names of `set_str_algo` (include/libcmaes/cmaparameters.h:138) and what they
mean: covariance update, restart scheme, separable or not. -/
def documented : List (String × CovKind × RestartKind × Bool) :=
  [("cmaes", .plain, .single, false), ("ipop", .plain, .ipop, false),
   ("bipop", .plain, .bipop, false), ("acmaes", .active, .single, false),
   ("aipop", .active, .ipop, false), ("abipop", .active, .bipop, false),
   ("sepcmaes", .plain, .single, true), ("sepipop", .plain, .ipop, true),
   ("sepbipop", .plain, .bipop, true), ("sepacmaes", .active, .single, true),
   ("sepaipop", .active, .ipop, true), ("sepabipop", .active, .bipop, true),
   ("vdcma", .vd, .single, false), ("vdipopcma", .vd, .ipop, false),
   ("vdbipopcma", .vd, .bipop, false)]

/-- Calls that change the learning rates. -/
inductive RateCall where
  | noisy
  | tpa (b : ℤ)
  | fix (index : ℕ) (value : ℝ)
  | unfix (index : ℕ)
  | elitism (e : ℤ)
  | algo (a : ℤ)

/-- Executing one of them. -/
noncomputable def RateCall.run {n : ℕ} (p : Params n) : RateCall → Out (Params n)
  | .noisy => p.setNoisy
  | .tpa b => .ok (p.setTpa b)
  | .fix i v => .ok (p.setFixedP i v)
  | .unfix i => .ok (p.unsetFixedP i)
  | .elitism e => .ok (p.setElitism e)
  | .algo a => .ok (p.setAlgo a)

end Libcmaes.Spec
