import Verif.Spec.RsvmStrategy
import Verif.Lemmas.RsvmWit
import Verif.Lemmas.SurrTrain
import Verif.Lemmas.SurrError
import Verif.Props.Rsvm

/-! # The ranking SVM as surrogate: training and prediction -/

namespace Libcmaes

open Spec Surr

variable {n m : ℕ}

theorem toMatVec_ok {us : USort (Cand n)} {c : List (Cand n)} {xs : List (Vec n)} (h : toMatVec us c = .ok xs) :
    ∃ W : List (Cand n), W.Perm c ∧ (W.Pairwise fun a b => ¬ FVal.lt a.fvalue b.fvalue) ∧ W ≠ [] ∧
      xs = W.map (·.x) := by
  unfold toMatVec at h
  obtain ⟨W, hW, h⟩ := Out.bind_eq_ok.1 h
  obtain ⟨a, ha, h⟩ := Out.bind_eq_ok.1 h
  obtain ⟨_, h1, h2⟩ := unstableSort_ok hW
  refine ⟨W, h1, h2, ?_, (Except.ok.inj h).symm⟩
  rintro rfl
  cases at!_eq_ok.1 ha

theorem toMatVec_length {us : USort (Cand n)} {c : List (Cand n)} {xs : List (Vec n)} (h : toMatVec us c = .ok xs) :
    xs.length = c.length ∧ 0 < c.length := by
  obtain ⟨W, h1, _, h2, rfl⟩ := toMatVec_ok h
  rw [List.length_map, h1.length_eq]
  exact ⟨rfl, by rw [← h1.length_eq]; exact List.length_pos_iff.2 h2⟩

theorem toMatVec_total {us : USort (Cand n)} {c : List (Cand n)} (hn : NoNaN c) (hc : c ≠ []) :
    ∃ xs, toMatVec us c = .ok xs := by
  unfold toMatVec
  have h0 := strictWeakOn_desc hn
  have hp := us.perm _ _ h0
  rw [show unstableSort us (fun a b => FVal.lt b.fvalue a.fvalue) c = .ok (us.sort _ c) from if_pos h0, Out.ok_bind]
  have hne : us.sort (fun a b => FVal.lt b.fvalue a.fvalue) c ≠ [] := by
    intro h
    rw [h] at hp
    exact hc (List.nil_perm.1 hp)
  obtain ⟨a, l, hal⟩ := List.exists_cons_of_ne_nil hne
  rw [hal]
  exact ⟨_, rfl⟩

theorem covArg_encode {diag : Bool} {sol : Sol n} (h : diag = true ∨ sol.hasCsq = true) {k : ℕ} (x : Pts n k) :
    encodePts (covArg diag sol) sol.xmean x = .ok fun i => encoded diag sol (x i) := by
  unfold covArg encoded
  cases diag with
  | true => rfl
  | false => rw [if_neg (by simp), if_pos (by simpa using h)]; rfl

theorem covArg_none {diag : Bool} {sol : Sol n} (h : ¬ (diag = true ∨ sol.hasCsq = true)) {k : ℕ} (x : Pts n k) :
    encodePts (covArg diag sol) sol.xmean x = .error .ub := by
  unfold covArg
  rw [if_neg fun h' => h (Or.inl h'), if_neg fun h' => h (Or.inr h')]
  rfl

/-- Training in encoded coordinates. -/
theorem svmTrain_encoded {diag : Bool} {sol : Sol n} (h : diag = true ∨ sol.hasCsq = true) (x : Pts n (m + 1))
    (iter : ℤ) (u : Vec m) :
    svmTrain { SvmConfig.default with encode := true } x iter (covArg diag sol) sol.xmean u =
      (svmTrain ⟨false, .rbf 1 1, 1e6, 1⟩ (fun i => encoded diag sol (x i)) iter none 0 u).map
        fun q => { q with cfg := { SvmConfig.default with encode := true } } := by
  unfold svmTrain
  simp only [if_true, Bool.false_eq_true, if_false, covArg_encode h, Out.ok_bind]
  cases hk : Kernel.init (.rbf 1 1) (fun i => encoded diag sol (x i)) with
  | error e => simp only [SvmConfig.default, hk]; rfl
  | ok kf =>
    simp only [SvmConfig.default, hk, Out.ok_bind]
    have e2 : svmOptimize ⟨true, .rbf 1 1, 1e6, 1⟩ (kernelMat kf fun i => encoded diag sol (x i)) iter u
      = svmOptimize ⟨false, .rbf 1 1, 1e6, 1⟩ (kernelMat kf fun i => encoded diag sol (x i)) iter u := rfl
    rw [e2]
    cases svmOptimize ⟨false, .rbf 1 1, 1e6, 1⟩ (kernelMat kf fun i => encoded diag sol (x i)) iter u with
    | error e => rfl
    | ok s => rfl

/-- The state of `_rsvm` that fits a training set of `k` points. -/
def FitsRanker (k : ℕ) (r : Ranker n) : Prop :=
  ∃ (m : ℕ) (q : Svm n m), r = some ⟨m, q⟩ ∧ m + 1 = k ∧ q.cfg.encode = true

theorem rsvmTrain_ok {diag : Bool} {us : USort (Cand n)} {iter : ℤ} {u : ℕ → ℝ} {r r' : Ranker n}
    {c : List (Cand n)} {sol : Sol n} (h : rsvmTrain diag us iter u r c sol = .ok r') (hc : c ≠ []) :
    ∃ (m : ℕ) (q : Svm n m) (x : Pts n (m + 1)), r' = some ⟨m, q⟩ ∧ m + 1 = c.length ∧
      toMatVec us c = .ok (List.ofFn x) ∧ q.cfg.encode = true ∧ WorstFirst c x ∧
      TrainedOn diag iter u sol c q (fun i => encoded diag sol (x i)) ∧ (diag = true ∨ sol.hasCsq = true) := by
  unfold rsvmTrain at h
  rw [if_neg (by simpa using hc)] at h
  obtain ⟨xs, hxs, h⟩ := Out.bind_eq_ok.1 h
  obtain ⟨W, h1, h2, h3, h4⟩ := toMatVec_ok hxs
  cases xs with
  | nil => cases h
  | cons a xs =>
    simp only at h
    obtain ⟨q, hq, h⟩ := Out.bind_eq_ok.1 h
    have hcov : diag = true ∨ sol.hasCsq = true := by
      by_contra hcov
      obtain ⟨y, _, _, hy, _⟩ := svmTrain_ok hq
      rw [if_pos rfl, covArg_none hcov] at hy
      cases hy
    have hwf : WorstFirst c (m := xs.length) (a :: xs).get := ⟨W, h1, h2, by rw [← h4]; exact (List.ofFn_get _).symm⟩
    have hq' := hq
    rw [svmTrain_encoded (m := xs.length) hcov] at hq
    cases hp : svmTrain ⟨false, .rbf 1 1, 1e6, 1⟩ (fun i => encoded diag sol ((a :: xs).get i)) iter none 0
      (fun i : Fin xs.length => u i) with
    | error e => rw [hp] at hq; cases hq
    | ok p =>
      rw [hp] at hq
      have hq2 : { p with cfg := { SvmConfig.default with encode := true } } = q := Except.ok.inj hq
      refine ⟨xs.length, q, (a :: xs).get, (Except.ok.inj h).symm, ?_, ?_, ?_, hwf, ⟨_, hwf, rfl, p, hp, ?_⟩, hcov⟩
      · rw [← h1.length_eq, ← List.length_map (f := fun c : Cand n => c.x), ← h4]; rfl
      · rw [hxs]; exact congrArg _ (List.ofFn_get _).symm
      · rw [← hq2]
      · rw [← hq2]; exact ⟨rfl, rfl, rfl⟩

theorem svmFit_score {a : Vec m} {kf : Vec n → Vec n → ℝ} {y : Pts n (m + 1)} {z : Vec n} :
    svmFit a kf y z = .ok (rankScore a kf y z) := by
  unfold svmFit
  rw [dif_pos le_rfl]
  rfl

/-- A trained ranker on as many points as it was trained with. -/
theorem rsvmPredict_eq {diag : Bool} {us : USort (Cand n)} {q : Svm n m} {ts c : List (Cand n)} {sol : Sol n}
    {x : Pts n (m + 1)} (hm : 0 < m) (he : q.cfg.encode = true) (hts : toMatVec us ts = .ok (List.ofFn x))
    (hcov : diag = true ∨ sol.hasCsq = true) (hc : c ≠ []) :
    rsvmPredict diag us (some ⟨m, q⟩) ts sol c = .ok (c.map fun d => { d with
        fvalue := FVal.ofReal (rankScore q.alpha q.kfun (fun i => encoded diag sol (x i)) (encoded diag sol d.x)) }) := by
  obtain ⟨d0, c', rfl⟩ := List.exists_cons_of_ne_nil hc
  unfold rsvmPredict
  rw [show at! (d0 :: c') 0 = .ok d0 from rfl, Out.ok_bind, hts, Out.ok_bind]
  generalize hl : List.ofFn x = l
  cases l with
  | nil => simp at hl
  | cons a xs =>
    simp only
    have hlen : xs.length = m := by
      have := congrArg List.length hl
      simpa using this.symm
    subst hlen
    have hx : (a :: xs).get = x := by
      have h0 : List.ofFn (n := xs.length + 1) (a :: xs).get = List.ofFn x := by rw [hl]; exact List.ofFn_get _
      exact List.ofFn_injective h0
    rw [hx]
    unfold Svm.predict
    rw [if_neg hm.ne', if_pos he, covArg_encode hcov, Out.ok_bind, if_pos he, covArg_encode hcov, Out.ok_bind]
    have h1 : ∀ l : List (Vec n), (List.ofFn fun i : Fin l.length => encoded diag sol l[i]) = l.map (encoded diag sol) := by
      intro l
      apply List.ext_getElem <;> simp
    have h2 : ∀ l : List (Vec n), l.mapM (svmFit q.alpha q.kfun fun i => encoded diag sol (x i)) =
        .ok (l.map fun z => rankScore q.alpha q.kfun (fun i => encoded diag sol (x i)) z) := by
      intro l
      induction l with
      | nil => rfl
      | cons z l ih => rw [List.mapM_cons, svmFit_score, Out.ok_bind, ih]; rfl
    rw [h1, h2, Out.ok_bind]
    show Except.ok _ = Except.ok _
    congr 1
    rw [List.map_map, List.map_map]
    generalize d0 :: c' = w
    induction w with
    | nil => rfl
    | cons d w ih => rw [List.map_cons, List.map_cons, List.zipWith_cons_cons, ih]; rfl

/-- Prediction needs the matrix. -/
theorem rsvmPredict_cov {diag : Bool} {us : USort (Cand n)} {q : Svm n m} {ts c l : List (Cand n)} {sol : Sol n}
    (hm : 0 < m) (he : q.cfg.encode = true) (h : rsvmPredict diag us (some ⟨m, q⟩) ts sol c = .ok l) :
    diag = true ∨ sol.hasCsq = true := by
  by_contra hcov
  unfold rsvmPredict at h
  obtain ⟨_, _, h⟩ := Out.bind_eq_ok.1 h
  obtain ⟨xs, _, h⟩ := Out.bind_eq_ok.1 h
  cases xs with
  | nil => cases h
  | cons a xs =>
    simp only at h
    obtain ⟨o, ho, _⟩ := Out.bind_eq_ok.1 h
    unfold Svm.predict at ho
    rw [if_neg hm.ne', if_pos he, covArg_none hcov] at ho
    cases ho

/-- A ranker trained on two points scores the first one of any two points it is given at least as high as the
second. -/
theorem rankScore_two {x y : Pts n 2} {iter : ℤ} {u : Vec 1} {r q : Svm n 1}
    (hq : svmTrain ⟨false, .rbf 1 1, 1e6, 1⟩ x iter none 0 u = .ok q) (hu : ∀ i, 0 ≤ u i ∧ u i < 1)
    (ha : r.alpha = q.alpha) (hk : r.kfun = q.kfun) :
    rankScore r.alpha r.kfun y (y 1) ≤ rankScore r.alpha r.kfun y (y 0) := by
  have hbox := C62_box ⟨false, .rbf 1 1, 1e6, 1⟩ trivial (by norm_num) x iter none 0 u hu q hq
  obtain ⟨x', kf, s, _, hkf, _, _, e⟩ := svmTrain_ok hq
  have hg : ∃ g, 0 < g ∧ q.kfun = rbfK g := by
    simp only [Kernel.init] at hkf
    obtain ⟨g, hg, hkf⟩ := Out.bind_eq_ok.1 hkf
    refine ⟨g, rbfInit_pos hg, ?_⟩
    rw [e]
    exact (Except.ok.inj hkf).symm
  obtain ⟨g, hg, hkq⟩ := hg
  have h0 : 0 ≤ q.alpha 0 := (hbox 0).1
  rw [ha, hk, hkq]
  unfold rankScore
  rw [Fin.sum_univ_one, Fin.sum_univ_one]
  have e0 : (0 : Fin 1).castSucc = (0 : Fin 2) := rfl
  have e1 : (0 : Fin 1).succ = (1 : Fin 2) := rfl
  rw [e0, e1, rbfK_self, rbfK_self]
  have b1 : ∀ a b : Vec n, rbfK g a b ≤ 1 := by
    intro a b
    unfold rbfK
    rw [Real.exp_le_one_iff]
    have : 0 ≤ sqNorm (a - b) := by unfold sqNorm; exact Finset.sum_nonneg fun i _ => mul_self_nonneg _
    nlinarith
  have := b1 (y 1) (y 0)
  have := b1 (y 0) (y 1)
  refine mul_le_mul_of_nonneg_left ?_ h0
  linarith

end Libcmaes
