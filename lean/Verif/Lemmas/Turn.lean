import Verif.Lemmas.Published
import Verif.Props.Total

/-! # What a turn of the loop hands over to the covariance update -/

namespace Libcmaes

open Spec Matrix Finset

variable {n : ℕ}

/-- What the turn `ask; eval; tell` hands over to the covariance update. -/
theorem turn_update {env : Env n} {s s1 s2 s3 : Strat n} {pop cols phen : List (Vec n)} (huh : s.p.uh = false)
    (ha : s.ask env = .ok (pop, s1)) (he : s1.eval env cols phen = .ok s2) (ht : s2.tell env = .ok s3) :
    ∃ sol3 sol4, covarianceUpdate env.eig s.kind s.p s1.es sol3 = .ok sol4 ∧ sol3.cands = s3.sol.cands ∧
      sol3.niter = s.sol.niter ∧ stateOf sol3 = stateOf s.sol ∧ sol3.cov = s.sol.cov ∧
      sol3.sepcov = s.sol.sepcov ∧ sol3.updatedEigen = s1.sol.updatedEigen ∧
      stateOf s3.sol = stateOf sol4 ∧ s3.sol.cov = sol4.cov ∧ s3.sol.sepcov = sol4.sepcov ∧
      sol3.v = s.sol.v ∧ s3.sol.v = sol4.v := by
  obtain ⟨⟨es, ei, ue, c, nz, x1, x2, p1, p2, e⟩, _⟩ := Strat.ask_frame ha
  obtain ⟨c2, nu, nzuh, lr, cu, cs, e1, _⟩ := Strat.eval_frame he
  obtain ⟨sol3, sol4, hc, hcs, _, ⟨_, _, _, _, _, _, _, _, _, _, e3⟩, mx, mn, lv, le, e'⟩ := Strat.tell_step ht
  have hp : s2.p = s.p := by rw [e1, e]
  rw [hp] at hc
  have hk : s2.kind = s.kind := by rw [e1, e]
  have hes : s2.es = s1.es := by rw [e1]
  rw [hk, hes] at hc
  refine ⟨sol3, sol4, hc, hcs, by rw [e3, e1, e], by rw [e3, e1, e]; rfl, by rw [e3, e1, e], by rw [e3, e1, e],
    by rw [e3, e1], ?_, by rw [e'], by rw [e'], by rw [e3, e1, e],
    by rw [e']⟩
  rw [e', hp, if_neg (by rw [huh]; simp)]
  rfl

end Libcmaes
