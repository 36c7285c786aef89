import Verif.Lemmas.RsvmTotal

/-! # The coordinates of the ranking SVM tell points apart -/

namespace Libcmaes

open Spec Surr Matrix

variable {n : ℕ}

/-- `S = U D Uᵀ` with `U` orthogonal and `D` positive. -/
def RootLike (S : Mat n) : Prop :=
  ∃ (U : Mat n) (d : Vec n), U * Uᵀ = 1 ∧ (∀ i, d i ≠ 0) ∧ S = U * diagonal d * Uᵀ

theorem RootLike.inj {S : Mat n} (h : RootLike S) : Function.Injective S.mulVec := by
  obtain ⟨U, d, hU, hd, rfl⟩ := h
  have hU' : Uᵀ * U = 1 := mul_eq_one_comm.1 hU
  have : (U * diagonal (fun i => (d i)⁻¹) * Uᵀ) * (U * diagonal d * Uᵀ) = 1 := by
    calc _ = U * diagonal (fun i => (d i)⁻¹) * (Uᵀ * U) * diagonal d * Uᵀ := by simp only [Matrix.mul_assoc]
      _ = U * (diagonal (fun i => (d i)⁻¹) * diagonal d) * Uᵀ := by rw [hU']; simp only [Matrix.mul_assoc, Matrix.one_mul]
      _ = 1 := by
        rw [diagonal_mul_diagonal]
        have : (fun i => (d i)⁻¹ * d i) = fun _ => 1 := funext fun i => inv_mul_cancel₀ (hd i)
        rw [this, diagonal_one, Matrix.mul_one, hU]
  intro a b hab
  have h2 := congrArg (U * diagonal (fun i => (d i)⁻¹) * Uᵀ).mulVec hab
  rwa [mulVec_mulVec, mulVec_mulVec, this, one_mulVec, one_mulVec] at h2

variable {M : Type} {env : Env n} {sf : SurrFuncs n M} {t t' : Surr n M}

theorem acmEval_sol {fuel : ℕ} {cols phen : List (Vec n)} (h : t.acmEval env sf fuel cols phen = .ok (some t')) :
    t'.s.es = t.s.es ∧ t'.s.kind = t.s.kind ∧ t'.s.p = t.s.p ∧ t'.s.sol.csqinv = t.s.sol.csqinv ∧
      t'.s.sol.hasCsq = t.s.sol.hasCsq := by
  unfold acmEval at h
  split_ifs at h with he hc
  · obtain ⟨o, ho, h⟩ := Out.bind_eq_ok.1 h
    rcases o with _ | ⟨nc, t1⟩
    · injection h with h; cases h
    simp only at h
    obtain ⟨pr, srt, k', is, _, e1, _, _, _, _, q5, q6, _⟩ := preSelect_ok ho
    have hpos : 0 < nc.length := by
      have := q6.length_eq
      simp only [List.length_map] at this
      omega
    obtain ⟨c, ds, js, k, nc2, nc3, e, _, _, _, _, _, _, _, e2, _⟩ := evalSelected_ok hpos h
    rw [e2, e1]
    exact ⟨rfl, rfl, rfl, rfl, rfl⟩
  all_goals
    obtain ⟨t1, ht1, h⟩ := Out.bind_eq_ok.1 h
    obtain ⟨t2, ht2, h⟩ := Out.bind_eq_ok.1 h
    have h := Option.some.inj (Except.ok.inj h)
    unfold evalAndCollect at ht2
    obtain ⟨s, hs, ht2⟩ := Out.bind_eq_ok.1 ht2
    have ht2 := Except.ok.inj ht2
    rw [foldl_add] at ht2
    have h1 : t1.s = t.s := by
      first
      | (obtain ⟨e, _, ht1⟩ := Out.bind_eq_ok.1 ht1
         rw [← Except.ok.inj ht1]; rfl)
      | (rw [← Except.ok.inj ht1])
    obtain ⟨c, nu, nz, lr, cu, cs, e2, _⟩ := Strat.eval_frame hs
    rw [← h, ← ht2]
    rw [e2, h1]
    exact ⟨rfl, rfl, rfl, rfl, rfl⟩

/-- What a generation makes of the factor by which points are scaled. -/
theorem acmGeneration_encode {fuel : ℕ} (hgr : t.s.p.withGradient = false) (hk : t.s.kind ≠ .vd)
    (h : t.acmGeneration env sf fuel = .ok (some t')) :
    (t.s.p.sep = true → ∀ i, 0 < t'.s.sol.sepcsqinv i) ∧
    (t.s.p.sep = false → (∃ e, t'.s.es.eig = some e ∧ inverseSqrt e = .ok t'.s.sol.csqinv) ∨
      (t.s.sol.hasCsq = true ∧ t'.s.sol.csqinv = t.s.sol.csqinv)) := by
  unfold acmGeneration at h
  obtain ⟨⟨pop, t1⟩, hask, h⟩ := Out.bind_eq_ok.1 h
  obtain ⟨phen, hph, h⟩ := Out.bind_eq_ok.1 h
  obtain ⟨o, hev, h⟩ := Out.bind_eq_ok.1 h
  rcases o with _ | t2
  · injection h with h; cases h
  simp only at h
  obtain ⟨t3, htl, h⟩ := Out.bind_eq_ok.1 h
  have hfin := Option.some.inj (Except.ok.inj h)
  clear h
  obtain ⟨⟨es, ei, ue, nz, x1, x2, p1, p2, e1⟩, hpl⟩ := acmAsk_ok hgr hask
  obtain ⟨b1, b2, b3, b4, b5⟩ := acmEval_sol hev
  obtain ⟨cs, sol2, sol3, k1, k2, k3, k4, mx, mn, lv, le, m, tr, e3⟩ := acmTell_ok htl
  obtain ⟨_, ck, cl, med, _, _, _, _, eb, _⟩ := Sol.updateBest_ok k3
  have hp : t2.s.p = t.s.p := by rw [b3, e1]
  have hkk : t2.s.kind = t.s.kind := by rw [b2, e1]
  have hc2 : sol2.csqinv = t.s.sol.csqinv := by rw [eb]; show t2.s.sol.csqinv = _; rw [b4, e1]
  have hh2 : sol2.hasCsq = t.s.sol.hasCsq := by rw [eb]; show t2.s.sol.hasCsq = _; rw [b5, e1]
  have hcsq : t'.s.sol.csqinv = sol3.csqinv := by rw [← hfin, e3]; rfl
  have hsc : t'.s.sol.sepcsqinv = sol3.sepcsqinv := by rw [← hfin, e3]; rfl
  have hes : t'.s.es = t2.s.es := by rw [← hfin, e3]; rfl
  rw [hkk, hp] at k4
  have hroot : ∀ i, 0 < sol2.sepcov i → 0 < Real.sqrt (1 / sol2.sepcov i) := fun i hi =>
    Real.sqrt_pos.2 (by positivity)
  have hof : ∀ csq, csqinvOf t2.s.es sol2 = .ok csq → (∃ e, t2.s.es.eig = some e ∧ inverseSqrt e = .ok csq) ∨
      (t.s.sol.hasCsq = true ∧ csq = t.s.sol.csqinv) := by
    intro csq hq
    unfold csqinvOf at hq
    split_ifs at hq with g1 g2
    · cases hes : t2.s.es.eig with
      | none => rw [hes] at hq; cases hq
      | some e => rw [hes] at hq; exact Or.inl ⟨e, rfl, hq⟩
    · exact Or.inr ⟨by rw [← hh2]; exact g2, by rw [← hc2]; exact (Except.ok.inj hq).symm⟩
  rw [hcsq, hsc, hes]
  unfold covarianceUpdate at k4
  cases hkd : t.s.kind with
  | vd => exact absurd hkd hk
  | plain =>
    rw [hkd] at k4
    simp only at k4
    constructor
    · intro hs
      rw [if_pos hs] at k4
      obtain ⟨_, _, csq, hb, q1, _, rfl⟩ := covUpdateSep_ok k4
      obtain ⟨r1, rfl⟩ := sepcsqinvOf_ok q1
      exact fun i => hroot i (r1 i)
    · intro hs
      rw [if_neg (by rw [hs]; simp)] at k4
      obtain ⟨_, _, csq, hb, q1, _, rfl⟩ := covUpdateFull_ok k4
      exact hof _ q1
  | active =>
    rw [hkd] at k4
    simp only at k4
    constructor
    · intro hs
      rw [if_pos hs] at k4
      obtain ⟨_, _, _, _, csq, hb, cm, q1, _, _, rfl⟩ := acovUpdateSep_ok k4
      obtain ⟨r1, rfl⟩ := sepcsqinvOf_ok q1
      exact fun i => hroot i (r1 i)
    · intro hs
      rw [if_neg (by rw [hs]; simp)] at k4
      obtain ⟨_, _, _, _, csq, hb, cm, q1, _, _, rfl⟩ := acovUpdateFull_ok k4
      exact hof _ q1

/-- Different points have different coordinates. -/
def Apart (diag : Bool) (s : Strat n) : Prop :=
  (diag = true → ∀ i, 0 < s.sol.sepcsqinv i) ∧ (diag = false → RootLike s.sol.csqinv)

theorem Apart.inj {diag : Bool} {s : Strat n} (h : Apart diag s) : Function.Injective (encoded diag s.sol) := by
  intro a b hab
  unfold encoded at hab
  cases diag with
  | true =>
    simp only [if_true] at hab
    funext i
    have := congrFun hab i
    simp only [Pi.mul_apply, Pi.sub_apply] at this
    have := mul_left_cancel₀ (h.1 rfl i).ne' this
    linarith
  | false =>
    simp only [Bool.false_eq_true, if_false] at hab
    have := (h.2 rfl).inj hab
    exact sub_left_injective this

theorem apart_generation {fuel : ℕ} (hL : LiveCore t.s) (hL' : LiveCore t'.s)
    (h0 : t.s.niter ≠ 0 → Apart t.s.p.sep t.s) (hni : t.s.sol.hasCsq = true → t.s.niter ≠ 0)
    (h : t.acmGeneration env sf fuel = .ok (some t')) : Apart t.s.p.sep t'.s := by
  obtain ⟨h1, h2⟩ := acmGeneration_encode hL.grad hL.kind h
  refine ⟨h1, fun hs => ?_⟩
  rcases h2 hs with ⟨e, he, hq⟩ | ⟨hc, he⟩
  · obtain ⟨g1, g2⟩ := hL'.eig e he
    unfold inverseSqrt at hq
    rw [if_pos g1] at hq
    refine ⟨e.2, _, g2, fun i => ?_, (Except.ok.inj hq).symm⟩
    exact (one_div_pos.2 (Real.sqrt_pos.2 (g1 i))).ne'
  · rw [he]
    exact (h0 (hni hc)).2 hs

end Libcmaes
