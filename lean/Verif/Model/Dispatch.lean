import Verif.Model.Params

/-!
# Model of the algorithm dispatch in include/libcmaes/cmaes.h and include/libcmaes/esoptimizer.h
-/

namespace Libcmaes

/-- The covariance update template arguments `CovarianceUpdate`, `ACovarianceUpdate`, `VDCMAUpdate`
(include/libcmaes/cmaes.h:49,118,333). -/
inductive CovKind where
  | plain
  | active
  | vd
  deriving DecidableEq, Repr

/-- The strategy templates `CMAStrategy`, `IPOPCMAStrategy`, `BIPOPCMAStrategy`
(include/libcmaes/cmaes.h:49,72,95). -/
inductive RestartKind where
  | single
  | ipop
  | bipop
  deriving DecidableEq, Repr

/-- What a `case` of the switch in `cmaes()` does (include/libcmaes/cmaes.h:42-367): optimizer type,
whether `set_sep()` / `set_vd()` is called when not yet done, and whether the starting solution is
passed on. -/
structure Launch where
  cov : CovKind
  restart : RestartKind
  forceSep : Bool
  forceVd : Bool
  usesSolution : Bool
  deriving DecidableEq, Repr

/-- The switch over `parameters.get_algo()` (include/libcmaes/cmaes.h:42-367, codes from
include/libcmaes/esoptimizer.h:32-63).  `none` is the `default:` case, an empty `CMASolutions()`. -/
def launch (algo : ℤ) : Option Launch :=
  if algo = 0 then some ⟨.plain, .single, false, false, true⟩
  else if algo = 1 then some ⟨.plain, .ipop, false, false, true⟩
  else if algo = 2 then some ⟨.plain, .bipop, false, false, true⟩
  else if algo = 3 then some ⟨.active, .single, false, false, true⟩
  else if algo = 4 then some ⟨.active, .ipop, false, false, true⟩
  else if algo = 5 then some ⟨.active, .bipop, false, false, true⟩
  else if algo = 6 then some ⟨.plain, .single, true, false, true⟩
  else if algo = 7 then some ⟨.plain, .ipop, true, false, true⟩
  else if algo = 8 then some ⟨.plain, .bipop, true, false, true⟩
  else if algo = 9 then some ⟨.active, .single, true, false, true⟩
  else if algo = 10 then some ⟨.active, .ipop, true, false, true⟩
  else if algo = 11 then some ⟨.active, .bipop, true, false, true⟩
  else if algo = 12 then some ⟨.vd, .single, false, true, false⟩
  else if algo = 13 then some ⟨.vd, .ipop, false, true, false⟩
  else if algo = 14 then some ⟨.vd, .bipop, false, true, false⟩
  else none

/-- The parameters with which `cmaes()` builds the optimizer: `set_sep` / `set_vd` unless already
done (include/libcmaes/cmaes.h:185-186, 331-332 and the like). -/
noncomputable def launchParams {n : ℕ} (p : Params n) : Option (Launch × Params n) :=
  (launch p.algo).map fun l =>
    let p1 := if l.forceSep && !p.sep then p.setSep else p
    let p2 := if l.forceVd && !p1.vd then p1.setVd else p1
    (l, p2)

end Libcmaes
