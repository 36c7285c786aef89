import Verif.Lemmas.RsvmStrategy
import Verif.Lemmas.SurrSwap

/-! # When a search with the ranking SVM goes on -/

namespace Libcmaes

open Spec Surr

variable {n m : ℕ}

theorem divR_cases (a b : ℝ) : (∃ c, divR a b = .ok c) ∨ divR a b = .error .notReal := by
  unfold divR
  split_ifs
  · exact Or.inr rfl
  · exact Or.inl ⟨_, rfl⟩

/-- Training on two points or more fails at most by a division by zero. -/
theorem svmTrain_cases (hm : 0 < m) (y : Pts n (m + 1)) (iter : ℤ) (u : Vec m) :
    (∃ q, svmTrain ⟨false, .rbf 1 1, 1e6, 1⟩ y iter none 0 u = .ok q) ∨
      svmTrain ⟨false, .rbf 1 1, 1e6, 1⟩ y iter none 0 u = .error .notReal := by
  unfold svmTrain
  simp only [Bool.false_eq_true, if_false, Out.ok_bind, Kernel.init, rbfInit]
  rcases divR_cases (sumDist y) (0.5 * (((m + 1 : ℕ) : ℝ) * (((m + 1 : ℕ) : ℝ) - 1))) with ⟨a, ha⟩ | ha
  · rw [ha, Out.ok_bind]
    rcases divR_cases 1 (2 * (1 * a ^ (1 : ℝ)) * (1 * a ^ (1 : ℝ))) with ⟨g, hg⟩ | hg
    · rw [hg]
      simp only [Out.ok_bind, Out.pure_eq]
      unfold svmOptimize
      simp only
      by_cases hd : ∃ i, svmDK (kernelMat (rbfK g) y) i i = 0
      · rw [if_pos hd]; exact Or.inr rfl
      · rw [if_neg hd]
        obtain ⟨s, hs⟩ := svmLoop_total (eps := 1) (dK := svmDK (kernelMat (rbfK g) y))
          (c := svmC 1e6 m) hm (List.range iter.toNat)
          ⟨svmAlpha0 (svmC 1e6 m) u, svmSums0 1 (svmDK (kernelMat (rbfK g) y)) (svmAlpha0 (svmC 1e6 m) u)⟩
        rw [hs, Out.ok_bind]
        exact Or.inl ⟨_, rfl⟩
    · rw [hg]; exact Or.inr rfl
  · rw [ha]; exact Or.inr rfl

/-- The training function of the strategy, on two points or more. -/
theorem rsvmTrain_cases {diag : Bool} {us : USort (Cand n)} {iter : ℤ} {u : ℕ → ℝ} (r : Ranker n)
    {c : List (Cand n)} {sol : Sol n} (hc : 2 ≤ c.length) (hn : NoNaN c) (hcov : diag = true ∨ sol.hasCsq = true) :
    ((∃ r', rsvmTrain diag us iter u r c sol = .ok r') ∨ rsvmTrain diag us iter u r c sol = .error .notReal) ∧
      ((c.map fun a => encoded diag sol a.x).Nodup → ∃ r', rsvmTrain diag us iter u r c sol = .ok r') := by
  have hne : c ≠ [] := by rintro rfl; simp at hc
  obtain ⟨xs, hxs⟩ := toMatVec_total (us := us) hn hne
  obtain ⟨hl, _⟩ := toMatVec_length hxs
  obtain ⟨W, h1, _, _, hW⟩ := toMatVec_ok hxs
  unfold rsvmTrain
  rw [if_neg (by simpa using hne), hxs, Out.ok_bind]
  cases xs with
  | nil => simp at hl; omega
  | cons a xs =>
    simp only
    have hm : 0 < xs.length := by simp at hl; omega
    rw [svmTrain_encoded (m := xs.length) hcov]
    constructor
    · rcases svmTrain_cases hm (fun i => encoded diag sol ((a :: xs).get i)) iter (fun i => u i) with ⟨q, hq⟩ | hq
      · rw [hq]; exact Or.inl ⟨_, rfl⟩
      · rw [hq]; exact Or.inr rfl
    · intro hnd
      have hnd' : ((a :: xs).map (encoded diag sol)).Nodup := by
        rw [hW, List.map_map]
        exact (h1.map _).nodup_iff.2 hnd
      obtain ⟨q, hq⟩ := C62_total false 1 1 1e6 1 one_ne_zero (fun i => encoded diag sol ((a :: xs).get i)) _ hm none 0 rfl
        (fun i h => by
          have hi := i.isLt
          have := (List.nodup_iff_injective_get.1 hnd') (a₁ := ⟨i, by rw [List.length_map, List.length_cons]; omega⟩)
            (a₂ := ⟨i + 1, by rw [List.length_map, List.length_cons]; omega⟩) (by
            simp only [List.get_eq_getElem, List.getElem_map]; exact h)
          simp at this) iter (fun i : Fin xs.length => u i)
      rw [hq]
      exact ⟨_, rfl⟩

/-! ### A total version of the two functions -/

/-- The value predicted for a point; 0 where the code does not set it or fails. -/
noncomputable def rsvmScore (diag : Bool) (us : USort (Cand n)) (r : Ranker n) (ts : List (Cand n)) (sol : Sol n)
    (x : Vec n) : FVal :=
  match r, toMatVec us ts with
  | some ⟨m, q⟩, .ok xs =>
    if h : xs.length = m + 1 then FVal.ofReal (rankScore q.alpha q.kfun
      (fun i => encoded diag sol (xs.get (i.cast h.symm))) (encoded diag sol x))
    else FVal.ofReal 0
  | _, _ => FVal.ofReal 0

/-- The functions of the strategy, made total. -/
noncomputable def rsvmSafe (diag : Bool) (us : USort (Cand n)) (usR : USort (RCand n)) (z0 z1 : ℕ → ℝ)
    (iter : ℤ) (u : ℕ → ℝ) : SurrFuncs n (Ranker n) where
  train r c sol :=
    match rsvmTrain diag us iter u r c sol with
    | .ok r' => .ok r'
    | .error _ => .ok r
  predict r ts sol c := .ok (c.map fun d => { d with fvalue := rsvmScore diag us r ts sol d.x })
  usort := us
  usortR := usR
  z0 := z0
  z1 := z1

theorem rsvmSafe_sane {env : Env n} {diag : Bool} {us : USort (Cand n)} {usR : USort (RCand n)} {z0 z1 : ℕ → ℝ}
    {iter : ℤ} {u : ℕ → ℝ} (hf : ∀ k y, (env.f k y).IsNum) :
    Sane env (rsvmSafe diag us usR z0 z1 iter u) (rsvmScore diag us) := by
  refine ⟨hf, fun r ts sol x => ?_, fun _ _ _ _ => rfl, fun r c sol => ?_⟩
  · unfold rsvmScore
    split
    · split_ifs <;> trivial
    · trivial
  · show ∃ m', (match rsvmTrain diag us iter u r c sol with
      | .ok r' => .ok r'
      | .error _ => .ok r) = Except.ok m'
    cases rsvmTrain diag us iter u r c sol with
    | ok r' => exact ⟨_, rfl⟩
    | error e => exact ⟨_, rfl⟩

theorem rsvmSafe_tools {diag : Bool} {us : USort (Cand n)} {usR : USort (RCand n)} {z0 z1 : ℕ → ℝ}
    {iter : ℤ} {u : ℕ → ℝ} :
    SameTools (rsvmFuncs diag us usR z0 z1 iter u) (rsvmSafe diag us usR z0 z1 iter u) := ⟨rfl, rfl, rfl, rfl⟩

theorem toMatVec_pts {us : USort (Cand n)} {ts : List (Cand n)} (hn : NoNaN ts) (hl : ts.length = m + 1) :
    ∃ x : Pts n (m + 1), toMatVec us ts = .ok (List.ofFn x) := by
  obtain ⟨xs, hxs⟩ := toMatVec_total (us := us) hn (by rintro rfl; simp at hl)
  have h2 := (toMatVec_length hxs).1.trans hl
  refine ⟨fun i => xs.get (i.cast h2.symm), ?_⟩
  rw [hxs]
  congr 1
  refine List.ext_getElem (by simp [h2]) fun i _ _ => ?_
  rw [List.getElem_ofFn]
  rfl

theorem rsvmSafe_predicts {diag : Bool} {us : USort (Cand n)} {usR : USort (RCand n)} {z0 z1 : ℕ → ℝ}
    {iter : ℤ} {u : ℕ → ℝ} {r : Ranker n} {k : ℕ} {b : Bool} (hk : 2 ≤ k) (hr : FitsRanker k r)
    (hcov : diag = true ∨ b = true) :
    SamePrediction (rsvmFuncs diag us usR z0 z1 iter u) (rsvmSafe diag us usR z0 z1 iter u) r k b := by
  intro ts sol l hl hn hb hne
  obtain ⟨m, q, rfl, hm, he⟩ := hr
  obtain ⟨x, hx⟩ := toMatVec_pts (m := m) (us := us) hn (by omega)
  show rsvmPredict diag us (some ⟨m, q⟩) ts sol l = _
  rw [rsvmPredict_eq (by omega) he hx (by rw [hb]; exact hcov) hne]
  show _ = Except.ok _
  congr 1
  refine List.map_congr_left fun d _ => ?_
  have : rsvmScore diag us (some ⟨m, q⟩) ts sol d.x = FVal.ofReal
      (rankScore q.alpha q.kfun (fun i => encoded diag sol (x i)) (encoded diag sol d.x)) := by
    unfold rsvmScore
    rw [hx]
    simp only
    rw [dif_pos (List.length_ofFn)]
    congr 2
    funext i
    rw [List.get_eq_getElem, List.getElem_ofFn]
    rfl
  rw [this]

/-- What makes the next generation of a search with the ranking SVM go on, unless training fails. -/
structure RsvmLive (diag : Bool) (t : Surr n (Ranker n)) : Prop extends AcmLive t where
  l : 2 ≤ t.l
  le : (t.tset.length : ℤ) ≤ t.l
  fits : t.full = true → FitsRanker t.tset.length t.m
  diag : diag = t.s.p.sep

theorem RsvmLive.cov {d : Bool} {t : Surr n (Ranker n)} (h : RsvmLive d t) (h0 : t.s.niter ≠ 0) :
    d = true ∨ t.s.sol.hasCsq = true := by
  cases hs : t.s.p.sep with
  | true => exact Or.inl (h.diag.trans hs)
  | false => exact Or.inr ((h.live.full hs).2.2 h0).1

theorem RsvmLive.started {d : Bool} {t : Surr n (Ranker n)} (h : RsvmLive d t) (hf : t.full = true) :
    t.s.niter ≠ 0 := by
  intro h0
  unfold full at hf
  rw [h.fresh h0] at hf
  have := h.l
  simp at hf
  omega

variable {env : Env n} {diag : Bool} {us : USort (Cand n)} {usR : USort (RCand n)} {z0 z1 : ℕ → ℝ}
  {iter : ℤ} {u : ℕ → ℝ}

/-- One generation: it ends, or training fails. -/
theorem rsvmGeneration_cases {t : Surr n (Ranker n)} (hf : ∀ k y, (env.f k y).IsNum)
    (hgp : ∀ x : Vec n, ∃ y, phenoV t.s.p.gp x = .ok y) (hL : RsvmLive diag t)
    (hsel : Selects (rsvmFuncs diag us usR z0 z1 iter u) t) :
    ∃ (F : ℕ) (t' : Surr n (Ranker n)),
      (∀ fuel ≥ F, t.acmGeneration env (rsvmSafe diag us usR z0 z1 iter u) fuel = .ok (some t')) ∧
      (((∀ fuel ≥ F, t.acmGeneration env (rsvmFuncs diag us usR z0 z1 iter u) fuel = .ok (some t')) ∧
          RsvmLive diag t') ∨
        (∀ fuel ≥ F, t.acmGeneration env (rsvmFuncs diag us usR z0 z1 iter u) fuel = .error .notReal) ∧
          t'.full = true ∧ ¬ (t'.tset.map fun a => encoded diag (told t'.s.sol) a.x).Nodup) := by
  obtain ⟨F, t', hgen, hL'⟩ := acmGeneration_total (rsvmSafe_sane (diag := diag) (us := us) (usR := usR) (z0 := z0)
    (z1 := z1) (iter := iter) (u := u) hf) hgp (fun _ => ⟨hsel.pre, hsel.prime, hsel.draws0, hsel.draws1⟩)
    hL.toAcmLive
  have hl2 := hL.live.good.lambda
  refine ⟨F, t', hgen, ?_⟩
  obtain ⟨c, added, hst⟩ := acmGeneration_step hL.live.uh hL.live.grad hL.live.cands (by omega) (hgen F le_rfl)
  have hts : t.begun.tset = t.tset := begun_tset (by
    by_cases h0 : t.s.niter = 0
    · exact Or.inr (hL.fresh h0)
    · exact Or.inl h0)
  have hl := hL.l
  have hle := hL.le
  have hle' : (t'.tset.length : ℤ) ≤ t'.l := by
    have := (hst.tset_length hts (by omega)).1
    rw [hst.l]
    omega
  have hni : t'.s.niter ≠ 0 := by rw [hst.niter]; omega
  have hdiag : diag = t'.s.p.sep := by rw [hst.p]; exact hL.diag
  have hcov' : diag = true ∨ (told t'.s.sol).hasCsq = true := by
    cases hs : t'.s.p.sep with
    | true => exact Or.inl (hdiag.trans hs)
    | false => exact Or.inr ((hL'.live.full hs).2.2 hni).1
  have hswap : ∀ fuel ≥ F, _ := fun fuel hfu => acmGeneration_swap (rsvmSafe_tools (diag := diag) (us := us)
    (usR := usR) (z0 := z0) (z1 := z1) (iter := iter) (u := u)) hL.live.grad hL.live.cands (by omega) (by omega)
    (by have := hsel.pre; omega) hL.fresh hL.le hL.tset hf
    (fun hfl => rsvmSafe_predicts (by
      unfold full at hfl
      simp only [ge_iff_le, decide_eq_true_eq] at hfl
      omega) (hL.fits hfl) (hL.cov (hL.started hfl))) (hgen fuel hfu)
  cases hful : t'.full with
  | false =>
    left
    refine ⟨fun fuel hfu => ?_, ⟨hL', by rw [hst.l]; exact hl, hle', fun h => ?_, hdiag⟩⟩
    · obtain ⟨t3, a1, a2, a3, a4, _, a6⟩ := hswap fuel hfu
      exact (a6 (by unfold full at hful ⊢; rw [a2, a3, ← hst.l]; exact hful)).2
    · rw [hful] at h; cases h
  | true =>
    have h3 : ∀ t3 : Surr n (Ranker n), t3.tset = t'.tset → t3.l = t.l → t3.full = true := by
      intro t3 a2 a3
      unfold full at hful ⊢
      rw [a2, a3, ← hst.l]; exact hful
    have hlen : 2 ≤ t'.tset.length := by
      unfold full at hful
      simp only [ge_iff_le, decide_eq_true_eq] at hful
      rw [hst.l] at hful
      omega
    have hcases := rsvmTrain_cases (diag := diag) (us := us) (iter := iter) (u := u) t.m (sol := told t'.s.sol) hlen
      hL'.tset hcov'
    rcases hcases.1 with ⟨r', hr'⟩ | herr
    · left
      obtain ⟨m, q, x, e1, e2, e3, e4, _⟩ := rsvmTrain_ok hr' (by
        intro h0; rw [h0] at hlen; simp at hlen)
      have hfit : FitsRanker t'.tset.length r' := ⟨m, q, e1, e2, e4⟩
      have hm' : t'.m = r' := by
        obtain ⟨t3, a1, a2, a3, a4, a5, _⟩ := hswap F le_rfl
        obtain ⟨_, t4, b1, b2⟩ := a5 (h3 t3 a2 a3)
        unfold acmLearn at b1
        obtain ⟨m1, c1, b1⟩ := Out.bind_eq_ok.1 b1
        obtain ⟨e, _, b1⟩ := Out.bind_eq_ok.1 b1
        have b1 := Except.ok.inj b1
        have c1' : (match rsvmTrain diag us iter u t3.m t3.tset t3.s.sol with
          | .ok r' => .ok r'
          | .error _ => .ok t3.m) = Except.ok m1 := c1
        rw [a1, a2, a4, hr'] at c1'
        rw [b2, ← b1]
        exact (Except.ok.inj c1').symm
      refine ⟨fun fuel hfu => ?_, ⟨hL', by rw [hst.l]; exact hl, hle', fun _ => by rw [hm']; exact hfit, hdiag⟩⟩
      obtain ⟨t3, a1, a2, a3, a4, a5, _⟩ := hswap fuel hfu
      obtain ⟨b0, t4, b1, b2⟩ := a5 (h3 t3 a2 a3)
      rw [b0]
      have hlearn : acmLearn (rsvmFuncs diag us usR z0 z1 iter u) t3 =
          acmLearn (rsvmSafe diag us usR z0 z1 iter u) t3 := by
        unfold acmLearn
        have c1 : (rsvmFuncs diag us usR z0 z1 iter u).train t3.m t3.tset t3.s.sol = .ok r' := by
          show rsvmTrain diag us iter u t3.m t3.tset t3.s.sol = _
          rw [a1, a2, a4, hr']
        have c2 : (rsvmSafe diag us usR z0 z1 iter u).train t3.m t3.tset t3.s.sol = .ok r' := by
          show (match rsvmTrain diag us iter u t3.m t3.tset t3.s.sol with
            | .ok r' => .ok r'
            | .error _ => .ok t3.m) = (Except.ok r' : Out (Ranker n))
          rw [a1, a2, a4, hr']
        rw [c1, c2, Out.ok_bind, Out.ok_bind]
        rw [computeError_swap (t := ({ t3 with m := r' } : Surr n (Ranker n))) rsvmSafe_tools (k := t'.tset.length)
          (b := (told t'.s.sol).hasCsq) (rsvmSafe_predicts hlen hfit hcov') (by show t3.tset.length = _; rw [a2])
          (by show NoNaN t3.tset; rw [a2]; exact hL'.tset) (by show t3.s.sol.hasCsq = _; rw [a4])
          (by rw [a2]; intro h0; rw [h0] at hlen; simp at hlen)]
      rw [hlearn, b1, b2]
      rfl
    · right
      refine ⟨fun fuel hfu => ?_, rfl, fun hnd => ?_⟩
      · obtain ⟨t3, a1, a2, a3, a4, a5, _⟩ := hswap fuel hfu
        obtain ⟨b0, _⟩ := a5 (h3 t3 a2 a3)
        rw [b0]
        unfold acmLearn
        have c1 : (rsvmFuncs diag us usR z0 z1 iter u).train t3.m t3.tset t3.s.sol = .error .notReal := by
          show rsvmTrain diag us iter u t3.m t3.tset t3.s.sol = _
          rw [a1, a2, a4, herr]
        rw [c1]
        rfl
      · obtain ⟨r', hr'⟩ := hcases.2 hnd
        rw [herr] at hr'
        cases hr'

end Libcmaes
