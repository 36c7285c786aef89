import Verif.Model.Dispatch
import Verif.Model.Restart

/-!
# Model of the Python front end: python/lcmaes_interface.py on the bindings of python/lcmaes.cc

Numbers are extracted from lists without loss.  Names are taken as given (`set_str_algo` wants bytes).  An exception raised by
the objective, and values of the wrong type, are not modelled; nor is the output file (see C101 for why it does not matter).
-/

namespace Libcmaes

variable {n : ℕ}

/-- What can come of a call: a Boost.Python `ArgumentError` (no overload takes these arguments), a `ValueError`, or an error
of the C++ code behind. -/
inductive PyErr where
  | argument
  | value
  | cpp (e : Err)
  deriving DecidableEq, Repr

abbrev PyOut (α : Type) := Except PyErr α

/-- An error of the C++ code seen from Python. -/
def PyOut.lift {α : Type} : Out α → PyOut α
  | .ok a => .ok a
  | .error e => .error (.cpp e)

/-- The four classes of parameter objects (python/lcmaes.cc:262, 303, 344, 385). -/
inductive PyClass where
  | nb
  | pb
  | nbs
  | pbs
  deriving DecidableEq, Repr

structure PyParams (n : ℕ) where
  cls : PyClass
  p : Params n

/-- The keywords of `to_params` after the named ones, `set_` plus the keyword being the setter called
(python/lcmaes_interface.py:58-62).  The setters bound are those of python/lcmaes.cc:263-299.  `sep`, `noisy` and `fixed_p` have a
setter that does not take exactly one value; `other` is a keyword without setter. -/
inductive PyKw where
  | restarts (k : ℕ)
  | maxIter (k : ℤ)
  | maxFevals (k : ℤ)
  | ftarget (v : FVal)
  | seed (k : ℤ)
  | ftolerance (v : ℝ)
  | xtolerance (v : ℝ)
  | quiet (b : Bool)
  | fullFplot (b : Bool)
  | gradient (b : Bool)
  | edm (b : Bool)
  | mtFeval (b : Bool)
  | uh (b : Bool)
  | tpa (k : ℤ)
  | sep
  | noisy
  | fixedP
  | other (name : String)

/-- `getattr(p,setter)(val)` (python/lcmaes_interface.py:58-62), the setters being those of
include/libcmaes/parameters.h:215-475 and include/libcmaes/cmaparameters.h:164-214; `clock` is for `set_seed`.  `quiet` and
`full_fplot` set members that the model does not have. -/
noncomputable def PyKw.call (clock : ℕ) (kw : PyKw) (p : Params n) : PyOut (Params n) :=
  match kw with
  | .restarts k => .ok { p with nrestarts := k }
  | .maxIter k => .ok { p with maxIter := k }
  | .maxFevals k => .ok { p with maxFevals := k }
  | .ftarget v => .ok { p with ftarget := v }
  | .seed k => .ok (p.setSeed k clock)
  | .ftolerance v => .ok { p with ftolerance := v }
  | .xtolerance v => .ok { p with xtol := v }
  | .quiet _ => .ok p
  | .fullFplot _ => .ok p
  | .gradient b => .ok { p with withGradient := b }
  | .edm b => .ok { p with withEdm := b }
  | .mtFeval b => .ok { p with mtFeval := b }
  | .uh b => .ok { p with uh := b }
  | .tpa k => .ok (p.setTpa k)
  | .sep => .error .argument
  | .noisy => .error .argument
  | .fixedP => .error .argument
  | .other _ => .error .value

/-- `for key, val in kwargs.items()` (python/lcmaes_interface.py:58-62). -/
noncomputable def callAll (clock : ℕ) : List PyKw → Params n → PyOut (Params n)
  | [], p => .ok p
  | kw :: l, p => do
    let q ← kw.call clock p
    callAll clock l q

/-- `make_parameters…(x0,sigma0,gp)` and `make_simple_parameters(x0,sigma0)` (python/lcmaes.cc:59-83): `lambda` is -1 and the
seed 0, that is, the clock. -/
noncomputable def pyMake (cls : PyClass) (clock : ℕ) (x0 : Vec n) (sigma0 : ℝ) (gp : GenoPheno) : PyOut (PyParams n) := do
  let p ← PyOut.lift (Params.make x0 sigma0 (-1) 0 clock gp)
  pure ⟨cls, p⟩

/-- The four branches of `to_params` (python/lcmaes_interface.py:37-51).  Lists of bounds of different sizes fail an
assertion, or are read past the end (python/lcmaes.cc:136-149), recorded as undefined.  `make_parameters_ls` is bound with five
arguments and no defaults (python/lcmaes.cc:383; the overloads are commented out in 230-231), and here called with three. -/
noncomputable def pyChoose (clock : ℕ) (x0 : Vec n) (sigma0 : ℝ) (lbounds ubounds : Option (List ℝ)) (scaling : Bool)
    (vscaling : Option (List ℝ)) : PyOut (PyParams n) :=
  match lbounds, ubounds with
  | some lb, some ub =>
    if lb.length ≠ ub.length then .error (.cpp .ub)
    else if scaling = false then pyMake .pb clock x0 sigma0 (GenoPheno.ofBounds none lb ub)
    else do
      let gp ← PyOut.lift (GenoPheno.ofBoundsScaled none lb ub)
      pyMake .pbs clock x0 sigma0 gp
  | _, _ =>
    match vscaling with
    | none => pyMake .nb clock x0 sigma0 GenoPheno.plain
    | some _ => .error .argument

/-- `to_params` (python/lcmaes_interface.py:28-63).  `vshift` is passed on with `vscaling` only, to a call that fails. -/
noncomputable def toParams (clock : ℕ) (x0 : Vec n) (sigma0 : ℝ) (algo : String) (lbounds ubounds : Option (List ℝ))
    (scaling : Bool) (vscaling : Option (List ℝ)) (kwargs : List PyKw) : PyOut (PyParams n) := do
  let c ← pyChoose clock x0 sigma0 lbounds ubounds scaling vscaling
  let q ← callAll clock kwargs (c.p.setStrAlgo algo)
  pure ⟨c.cls, q⟩

/-- `cmaes(func,parameters)` (include/libcmaes/cmaes.h:31-369), as to the calls of the objective; `none` if the loops need more
than `fuel` turns. -/
noncomputable def cmaesCalls (env : Env n) (fuel : ℕ) (p : Params n) : Out (Option (List (Vec n × FVal))) :=
  match launchParams p with
  | none => .ok (some [])
  | some (l, q) =>
    match l.restart with
    | .single => do
      let s ← Strat.new env l.cov q
      let r ← s.optimize env fuel
      pure (r.map fun t => t.calls)
    | .ipop => do
      let s ← Strat.new env l.cov q
      let r ← s.ipopOptimize env fuel
      pure (r.map fun t => t.1.calls)
    | .bipop => do
      let b ← Bipop.new env l.cov q
      let r ← b.optimize env fuel
      pure (r.map fun t => t.b.s.calls)

/-- `lcmaes.pcmaes`, `pcmaes_pwqb`, `pcmaes_ls`, `pcmaes_pwqb_ls` (python/lcmaes.cc:44-57, 468-471): each takes one class.  The objective
gets the point as a list, entry by entry. -/
noncomputable def boundPcmaes (want : PyClass) (env : Env n) (fuel : ℕ) (pp : PyParams n) :
    PyOut (Option (List (Vec n × FVal))) :=
  if pp.cls = want then PyOut.lift (cmaesCalls env fuel pp.p) else .error .argument

/-- `pcmaes` of the interface (python/lcmaes_interface.py:65-77). -/
noncomputable def pyPcmaes (env : Env n) (fuel : ℕ) (pp : PyParams n) : PyOut (Option (List (Vec n × FVal))) :=
  let hasBounds := pp.cls = .pb ∨ pp.cls = .pbs
  let hasScaling := pp.cls = .nbs ∨ pp.cls = .pbs
  if ¬ hasBounds then
    if ¬ hasScaling then boundPcmaes .nb env fuel pp else boundPcmaes .nbs env fuel pp
  else
    if ¬ hasScaling then boundPcmaes .pb env fuel pp else boundPcmaes .pbs env fuel pp

/-- `get_solution_cov` (python/lcmaes.cc:107-119): an array of `dim` times `dim` numbers from the data of `_cov`. -/
def pyCov (s : Sol n) : Out (Mat n) := if s.hasCov then .ok s.cov else .error .ub

/-- `get_solution_sepcov` (python/lcmaes.cc:128-133): it wraps `get_solution_cov_py`, not `get_solution_sepcov_py`. -/
def pySepcov (s : Sol n) : Out (Mat n) := pyCov s

end Libcmaes
