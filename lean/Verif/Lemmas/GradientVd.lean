import Verif.Lemmas.GradientWit
import Verif.Lemmas.VdWit

/-!
# Lemmas on the gradient candidate of the VD model
-/

namespace Libcmaes

open Matrix Spec

variable {n : ℕ}

/-- The first candidate of the VD model with gradient injection. -/
theorem ask_vd_first {env : Env n} {s s' : Strat n} {pop : List (Vec n)} (hvd : s.p.vd = true)
    (hw : s.p.withGradient = true) (hfx : s.p.fixedP = []) (hd : ∀ i, 0 < s.sol.sepcov i)
    (h : s.ask env = .ok (pop, s')) :
    ∃ (sa sb : Strat n) (ph g gg : Vec n), sa.calls = s.calls ∧ sa.p = s.p ∧ sa.negate = s.negate ∧
      phenoV s.p.gp s.sol.xmean = .ok ph ∧ sa.gradf env ph = .ok (sb, g) ∧ sb.gradgp s.sol.xmean = .ok gg ∧
      (g * gg ≠ 0 → pop[0]? = some (s.sol.xmean -
        (s.sol.sigma * (Real.sqrt n / vnorm fun i => Real.sqrt (s.sol.sepcov i) * (g * gg) i)) •
        (s.sol.sepcov * (g * gg)))) := by
  unfold Strat.ask at h
  obtain ⟨s1, h1, h⟩ := Out.bind_eq_ok.1 h
  obtain ⟨⟨pop1, s2⟩, h2, h⟩ := Out.bind_eq_ok.1 h
  obtain ⟨⟨pop2, s3⟩, h3, h⟩ := Out.bind_eq_ok.1 h
  obtain ⟨⟨pop3, s4⟩, h4, h⟩ := Out.bind_eq_ok.1 h
  obtain ⟨pop4, h5, h⟩ := Out.bind_eq_ok.1 h
  injection h with h; injection h with h6 h7
  subst h6; subst h7
  obtain ⟨es, ei, ue, e1⟩ := Strat.askPrepare_frame h1
  obtain ⟨e2, l2⟩ := Strat.askSample_frame h2
  have hfix : pop4 = pop3 := by
    rw [hfx] at h5
    have : pop3.mapM (setFixed (n := n) []) = .ok pop3 := by
      have : (setFixed (n := n) []) = pure := rfl
      rw [this, List.mapM_pure, List.map_id']
      rfl
    rw [this] at h5
    injection h5 with h5
    exact h5.symm
  have ep : s2.p = s.p := by rw [e2, e1]
  have hw3 : s3.p = s.p := by
    obtain ⟨⟨c, e3⟩, _⟩ := Strat.askGradient_frame h3
    rw [e3, e2, e1]
  have h30 : pop3[0]? = pop2[0]? := by
    unfold Strat.askTpa at h4
    by_cases c1 : s3.p.tpa = 2 ∧ s3.niter > 0
    · rw [if_pos c1] at h4
      by_cases c2 : s3.sol.sigma = 0
      · rw [if_pos c2] at h4; cases h4
      rw [if_neg c2] at h4
      obtain ⟨nrm, _, h4⟩ := Out.bind_eq_ok.1 h4
      have hwt : s3.p.withGradient = true := by rw [hw3, hw]
      simp only [hwt, if_true] at h4
      split_ifs at h4
      injection h4 with h4; injection h4 with h4 _
      rw [← h4]
      simp
    · rw [if_neg c1] at h4
      injection h4 with h4; injection h4 with h4 _
      rw [h4]
  unfold Strat.askGradient at h3
  rw [if_neg (by rw [ep, hw]; simp)] at h3
  obtain ⟨ph, hph, h3⟩ := Out.bind_eq_ok.1 h3
  obtain ⟨⟨sb, g⟩, hgr, h3⟩ := Out.bind_eq_ok.1 h3
  obtain ⟨gg, hgg, h3⟩ := Out.bind_eq_ok.1 h3
  simp only at h3 hgg
  have hm : s2.sol.xmean = s.sol.xmean := by rw [e2, e1]
  have hsg : s2.sol.sigma = s.sol.sigma := by rw [e2, e1]
  have hsc : s2.sol.sepcov = s.sol.sepcov := by rw [e2, e1]
  rw [hm] at hph hgg h3
  rw [ep] at hph
  rw [hfix]
  refine ⟨s2, sb, ph, g, gg, by rw [e2, e1], ep, by rw [e2, e1], hph, hgr, hgg, fun h0 => ?_⟩
  rw [if_neg h0] at h3
  by_cases hp : pop1 = []
  · rw [if_pos hp] at h3; cases h3
  rw [if_neg hp] at h3
  have hlen : 0 < pop1.length := List.length_pos_iff.2 hp
  rw [if_neg (by rw [ep, hvd]; simp), if_pos (fun i => by rw [hsc]; exact (hd i).le)] at h3
  split_ifs at h3 with hq
  injection h3 with h3; injection h3 with h31 h32
  rw [h30, ← h31, hsg, hsc]
  simp [hlen]

/-- The distance of that candidate from the mean. -/
theorem distSq_vd {m : Vec n} {sigma : ℝ} {d v g : Vec n} (hd : ∀ i, 0 < d i) (hsg : 0 < sigma) (hg : g ≠ 0) :
    distSq m sigma (vdMat d v) (m - (sigma * (Real.sqrt n / vnorm fun i => Real.sqrt (d i) * g i)) • (d * g)) =
      n * (g ⬝ᵥ g - (v ⬝ᵥ g) ^ 2 / (1 + v ⬝ᵥ v)) / ∑ i, d i * g i ^ 2 := by
  have hpos : 0 < ∑ i, d i * g i ^ 2 := by
    obtain ⟨i, hi⟩ : ∃ i, g i ≠ 0 := by
      by_contra h; push Not at h; exact hg (funext h)
    refine Finset.sum_pos' (fun j _ => mul_nonneg (hd j).le (sq_nonneg _)) ⟨i, Finset.mem_univ i, ?_⟩
    have := hd i
    positivity
  have hq : (vnorm fun i => Real.sqrt (d i) * g i) = Real.sqrt (∑ i, d i * g i ^ 2) := by
    unfold vnorm sqNorm
    congr 1
    refine Finset.sum_congr rfl fun i _ => ?_
    show Real.sqrt (d i) * g i * (Real.sqrt (d i) * g i) = _
    rw [mul_mul_mul_comm, Real.mul_self_sqrt (hd i).le, sq]
  set S := ∑ i, d i * g i ^ 2 with hS
  set c := sigma * (Real.sqrt n / Real.sqrt S) with hc
  have hc2 : c ^ 2 = sigma ^ 2 * (n / S) := by
    rw [hc, mul_pow, div_pow, Real.sq_sqrt (Nat.cast_nonneg n), Real.sq_sqrt hpos.le]
  have hx : m - c • (d * g) - m = -(c • (d * g)) := by abel
  have hdg : (diagonal fun k => (d k)⁻¹).mulVec (-(c • (d * g))) = -(c • g) := by
    funext k
    rw [mulVec_diagonal]
    simp only [Pi.neg_apply, Pi.smul_apply, Pi.mul_apply, smul_eq_mul]
    have := (hd k).ne'
    field_simp
  have hquad : quad (vdMat d v)⁻¹ (-(c • (d * g))) = c ^ 2 * (g ⬝ᵥ g - (v ⬝ᵥ g) ^ 2 / (1 + v ⬝ᵥ v)) := by
    rw [vdMat_inv (fun k => (hd k).ne')]
    unfold quad
    rw [← mulVec_mulVec, ← mulVec_mulVec, hdg, dotProduct_mulVec, ← mulVec_transpose, diagonal_transpose, hdg]
    rw [mulVec_neg, mulVec_smul, neg_dotProduct_neg, smul_dotProduct, dotProduct_smul, smul_smul, vdW_mulVec]
    have : (g ⬝ᵥ fun k => g k - v k * (v ⬝ᵥ g) / (1 + v ⬝ᵥ v)) = g ⬝ᵥ g - (v ⬝ᵥ g) ^ 2 / (1 + v ⬝ᵥ v) := by
      show ∑ k, g k * (g k - v k * (v ⬝ᵥ g) / (1 + v ⬝ᵥ v)) = _
      have e : ∀ k, g k * (g k - v k * (v ⬝ᵥ g) / (1 + v ⬝ᵥ v)) = g k * g k - v k * g k * ((v ⬝ᵥ g) / (1 + v ⬝ᵥ v)) :=
        fun k => by ring
      simp only [e]
      rw [Finset.sum_sub_distrib, ← Finset.sum_mul]
      show g ⬝ᵥ g - (v ⬝ᵥ g) * _ = _
      ring
    rw [this, smul_eq_mul, sq c]
  unfold distSq
  rw [hq, hx, hquad, hc2]
  field_simp

end Libcmaes
