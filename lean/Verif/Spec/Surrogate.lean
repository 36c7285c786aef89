import Verif.Model.Surrogate
import Verif.Spec.Run

/-!
# Surrogate models: what the properties say
-/

namespace Libcmaes.Spec

variable {n : ℕ} {M : Type}

/-- The prediction function keeps the points it is given, in their order, and sets values only. -/
def OnlyValues (sf : SurrFuncs n M) : Prop :=
  ∀ m ts sol l l', sf.predict m ts sol l = .ok l' → List.Forall₂ (fun a b => b.x = a.x ∧ b.id = a.id) l l'

/-- The prediction for a point is a function `g` of the point, the model, the training set and the
solutions object, but not of the other points to be predicted. -/
def Pointwise (sf : SurrFuncs n M) (g : M → List (Cand n) → Sol n → Vec n → FVal) : Prop :=
  ∀ m ts sol l, sf.predict m ts sol l = .ok (l.map fun c => { c with fvalue := g m ts sol c.x })

/-- Candidate `a` was evaluated by the call `q` of the objective function: at its phenotype, and its value
is the answer (negated when maximizing). -/
def Answers (neg : Bool) (gp : GenoPheno) (a : Cand n) (q : Vec n × FVal) : Prop :=
  phenoV gp a.x = .ok q.1 ∧ a.fvalue = if neg then q.2.neg else q.2

/-- Number of pairs of test points of which the first has the greater objective value but not a predicted
value as great. -/
noncomputable def discordant (g : Vec n → FVal) (test : List (Cand n)) : ℕ :=
  open Classical in
  (test.map fun a => test.countP fun b => decide (FVal.lt b.fvalue a.fvalue ∧ ¬ FVal.le (g b.x) (g a.x))).sum

/-- The model orders the test points as the objective does, wherever that tells them apart. -/
def SameOrder (g : Vec n → FVal) (test : List (Cand n)) : Prop :=
  ∀ a ∈ test, ∀ b ∈ test, FVal.lt b.fvalue a.fvalue → FVal.le (g b.x) (g a.x)

/-- `t` is a simple surrogate strategy built from parameters `p` with a model in state `m`, after any calls of its
setters (`set_nsteps` with a number other than 0). -/
inductive SimpleStart (env : Env n) (kind : CovKind) (p : Params n) (m : M) : Surr n M → Prop
  | new {t} : Surr.newSimple env kind p m = .ok t → SimpleStart env kind p m t
  | setL {t} (l : ℤ) : SimpleStart env kind p m t → SimpleStart env kind p m (t.setL l)
  | setExploit {t} (b : Bool) : SimpleStart env kind p m t → SimpleStart env kind p m (t.setExploit b)
  | setNsteps {t} (k : ℤ) : k ≠ 0 → SimpleStart env kind p m t → SimpleStart env kind p m (t.setNsteps k)

/-- What the theorems assume of the user's functions: objective values and predictions are numbers or infinities,
each point is predicted on its own, training does not fail. -/
structure Sane (env : Env n) (sf : SurrFuncs n M) (g : M → List (Cand n) → Sol n → Vec n → FVal) : Prop where
  num_f : ∀ k y, (env.f k y).IsNum
  num_g : ∀ m ts sol x, (g m ts sol x).IsNum
  predict : Pointwise sf g
  train : ∀ m ts sol, ∃ m', sf.train m ts sol = .ok m'

/-- Outcome of a pre-selection among candidates `pr`, which carry predicted values.  `L` is the new population in
its order, each candidate beside its original in `pr`: distinct candidates of `pr`, at their points.  Those in `E`
have been evaluated, by the calls `c`, among them one that is predicted to be best of all; those in `rest` have the
greatest value of a `double`.  The population is sorted by value, and by prediction among equal values. -/
structure Preselected (neg : Bool) (gp : GenoPheno) (pr : List (Cand n)) (c : List (Vec n × FVal))
    (E rest L : List (Cand n × Cand n)) : Prop where
  distinct : (L.map Prod.snd).Subperm pr
  same : ∀ q ∈ L, q.1.x = q.2.x
  parts : L.Perm (E ++ rest)
  evaluated : List.Forall₂ (Answers neg gp) (E.map Prod.fst) c
  worst : ∀ q ∈ rest, q.1.fvalue = FVal.ofReal dblMax
  best : ∃ q ∈ E, ∀ a ∈ pr, ¬ FVal.lt a.fvalue q.2.fvalue
  sorted : L.Pairwise fun a b => ¬ FVal.lt b.1.fvalue a.1.fvalue ∧
    (FVal.eq a.1.fvalue b.1.fvalue → ¬ FVal.lt b.2.fvalue a.2.fvalue)

/-- `t` is an ACM surrogate strategy built from parameters `p` with a model in state `m`, after any calls of its
setters (`set_nsteps` with a number other than 0). -/
inductive AcmStart (env : Env n) (kind : CovKind) (p : Params n) (m : M) : Surr n M → Prop
  | new {t} : Surr.newAcm env kind p m = .ok t → AcmStart env kind p m t
  | setL {t} (l : ℤ) : AcmStart env kind p m t → AcmStart env kind p m (t.setL l)
  | setExploit {t} (b : Bool) : AcmStart env kind p m t → AcmStart env kind p m (t.setExploit b)
  | setNsteps {t} (k : ℤ) : k ≠ 0 → AcmStart env kind p m t → AcmStart env kind p m (t.setNsteps k)
  | setLambdaprime {t} (k : ℤ) : AcmStart env kind p m t → AcmStart env kind p m (t.setLambdaprime k)
  | setPrelambda {t} (k : ℤ) : AcmStart env kind p m t → AcmStart env kind p m (t.setPrelambda k)
  | setTheta0 {t} (v : ℝ) : AcmStart env kind p m t → AcmStart env kind p m (t.setTheta0 v)
  | setTheta1 {t} (v : ℝ) : AcmStart env kind p m t → AcmStart env kind p m (t.setTheta1 v)

/-- The random numbers `dev * z j`, scaled and rounded down, are small enough for an `int` and hit every index below
`size` again and again.  (Independent normal numbers do so with probability 1, up to the first number too large for
an `int`.) -/
structure Reaches (scale dev : ℝ) (z : ℕ → ℝ) (size : ℕ) : Prop where
  small : ∀ j, scale * |dev * z j| < 2147483648
  hit : ∀ i < size, ∀ j, ∃ j' ≥ j, ⌊scale * |dev * z j'|⌋ = (i : ℤ)

end Libcmaes.Spec
