import Verif.Model.Rsvm

/-!
# What the ranking SVM is meant to compute

Training points come worst first.  The multiplier of pair `i` weighs the wish that point `i` be
predicted at least `eps` above point `i + 1`.
-/

namespace Libcmaes.Spec

variable {m n : ℕ}

/-- Inner product, in feature space, of the differences of the pairs `i` and `j`. -/
def pairK (K : Mat (m + 1)) (i j : Fin m) : ℝ :=
  (K i.castSucc j.castSucc - K i.succ j.castSucc) - (K i.castSucc j.succ - K i.succ j.succ)

/-- The dual objective: `eps Σ a_i - 1/2 ‖Σ a_i (φ(x_i) - φ(x_{i+1}))‖²`. -/
noncomputable def dual (K : Mat (m + 1)) (eps : ℝ) (a : Vec m) : ℝ :=
  eps * ∑ i, a i - 1 / 2 * ∑ i, ∑ j, a i * a j * pairK K i j

/-- The multipliers allowed: later (better) pairs may weigh more. -/
def InSvmBox (cval : ℝ) (a : Vec m) : Prop :=
  ∀ i : Fin m, 0 ≤ a i ∧ a i ≤ cval * ((i : ℕ) + 1 : ℝ) ^ 2

/-- The prediction of a ranker. -/
def rankScore (a : Vec m) (kf : Vec n → Vec n → ℝ) (train : Pts n (m + 1)) (x : Vec n) : ℝ :=
  ∑ j : Fin m, a j * (kf x (train j.castSucc) - kf x (train j.succ))

end Libcmaes.Spec

namespace Libcmaes

/-- The kernels for which the diagonal of the pair matrix cannot be negative. -/
def Kernel.Sound : Kernel → Prop
  | .poly _ c => 0 ≤ c
  | _ => True

end Libcmaes
