import Verif.Model.Params

/-!
# Model of the constructor of `CMAParameters` with a vector of step sizes
-/

namespace Libcmaes

/-- `TGenoPheno(scaling,shift,lbounds,ubounds)` for the four types: without linear scaling the arguments are ignored
(include/libcmaes/genopheno.h:85-94), with it they are used (336-362).  `&v.front()` of an empty vector is taken as a
null pointer; formally it is undefined.  The bounds are read up to the size of `scaling`. -/
noncomputable def GenoPheno.ofScaling (bounded scaled : Bool) (scaling shift lb ub : List ℝ) : Out GenoPheno :=
  match bounded, scaled with
  | false, false => .ok ⟨.noBound, none, .noScaling⟩
  | true, false => .ok ⟨.pwq Pwq.empty, none, .noScaling⟩
  | false, true => .ok (GenoPheno.ofVectorsNoBound scaling shift)
  | true, true =>
    if lb.isEmpty || ub.isEmpty then .ok ⟨.pwq Pwq.empty, none, .lin (LinScaling.ofVectors scaling shift)⟩
    else GenoPheno.ofVectorsPwq scaling shift (lb.take scaling.length) (ub.take scaling.length)

/-- Constructor with a vector of step sizes (src/cmaparameters.cc:51-66).  `bounded` and `scaled` say which of the four
types `TGenoPheno` is.  A vector of step sizes of another size than `x0`, and an empty one (`*std::min_element`), are
undefined behaviour; a step size of 0 gives an infinite scaling. -/
noncomputable def Params.makeSigmas {n : ℕ} (bounded scaled : Bool) (x0 : Vec n) (sigma : List ℝ) (lambda : ℤ)
    (lb ub : List ℝ) (seed clock : ℕ) : Out (Params n) := do
  let l ← lambdaOf n lambda
  if sigma.length ≠ n then .error .ub else do
  let scaling ← sigma.mapM (divR 1)
  let gp ← GenoPheno.ofScaling bounded scaled scaling (List.replicate n 0) lb ub
  match sigma.min? with
  | none => .error .ub
  | some m => initializeParameters (Params.blank l x0 m (if seed = 0 then clock else seed) gp)

end Libcmaes
