import Verif.Model.Dispatch

/-!
# Model of the dispatch in include/libcmaes/surrcmaes.h
-/

namespace Libcmaes

/-- The switch of `surrcmaes()` (include/libcmaes/surrcmaes.h:35-133): the table of `cmaes()`, with
`RSVMSurrogateStrategy` around each strategy and without a starting solution.  `set_sep()` and `set_vd()` are
called each time.  The second component is the parameters object of the caller, taken by reference, after the call; the
optimizer works on a copy of it.  `none` is the `default:` case, an empty `CMASolutions()`. -/
noncomputable def surrLaunchParams {n : ℕ} (p : Params n) : Option (Launch × Params n) :=
  (launch p.algo).map fun l =>
    let p1 := if l.forceSep then p.setSep else p
    let p2 := if l.forceVd then p1.setVd else p1
    ({ l with usesSolution := false }, p2)

/-- The parameters object after `k` calls of `surrcmaes()` with it. -/
noncomputable def afterSurrCalls {n : ℕ} (p : Params n) : ℕ → Params n
  | 0 => p
  | k + 1 => match surrLaunchParams (afterSurrCalls p k) with
    | some (_, q) => q
    | none => afterSurrCalls p k

end Libcmaes
