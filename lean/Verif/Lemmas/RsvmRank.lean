import Verif.Spec.RsvmRank
import Verif.Lemmas.RsvmStrategy
import Verif.Lemmas.RsvmAffine

/-! # The order in which the ranking SVM sees its training points -/

namespace Libcmaes

open Spec

variable {n : ℕ}

theorem toMatVec_ranking {us us' : USort (Cand n)} {c c' : List (Cand n)} (hn : NoNaN c) (hn' : NoNaN c')
    (ht : NoTies c) (hr : SameRanking c c') (hc : c ≠ []) : toMatVec us c = toMatVec us' c' := by
  obtain ⟨h, hp, hx, hlt⟩ := hr
  have hc' : c' ≠ [] := by
    rintro rfl
    exact hc (List.map_eq_nil_iff.1 (List.nil_perm.1 hp))
  obtain ⟨xs, h1⟩ := toMatVec_total (us := us) hn hc
  obtain ⟨xs', h1'⟩ := toMatVec_total (us := us') hn' hc'
  obtain ⟨W, w1, w2, _, rfl⟩ := toMatVec_ok h1
  obtain ⟨W', w1', w2', _, rfl⟩ := toMatVec_ok h1'
  have hWp : W'.Perm (W.map h) := w1'.trans (hp.trans (w1.map h).symm)
  have hWs : (W.map h).Pairwise fun a b => ¬ FVal.lt a.fvalue b.fvalue := by
    rw [List.pairwise_map]
    exact w2.imp_of_mem fun {a b} ha hb hab => by rwa [hlt a (w1.mem_iff.1 ha) b (w1.mem_iff.1 hb)]
  have htW : W.Pairwise fun a b => FVal.lt a.fvalue b.fvalue ∨ FVal.lt b.fvalue a.fvalue :=
    (w1.pairwise_iff fun {a b} hab => Or.symm hab).2 ht
  have hW : W' = W.map h := by
    refine List.Perm.eq_of_pairwise (le := fun a b => ¬ FVal.lt a.fvalue b.fvalue) ?_ w2' hWs hWp
    intro a b ha hb hab hba
    obtain ⟨a0, ha0, rfl⟩ := List.mem_map.1 (hWp.mem_iff.1 ha)
    obtain ⟨b0, hb0, rfl⟩ := List.mem_map.1 hb
    rw [hlt a0 (w1.mem_iff.1 ha0) b0 (w1.mem_iff.1 hb0)] at hab
    rw [hlt b0 (w1.mem_iff.1 hb0) a0 (w1.mem_iff.1 ha0)] at hba
    by_contra hne
    have hne' : a0 ≠ b0 := fun e => hne (by rw [e])
    have : Std.Symm fun a b : Cand n => FVal.lt a.fvalue b.fvalue ∨ FVal.lt b.fvalue a.fvalue :=
      ⟨fun _ _ hab => Or.symm hab⟩
    rcases htW.forall ha0 hb0 hne' with h | h
    · exact hab h
    · exact hba h
  rw [h1, h1', hW, List.map_map]
  congr 1
  exact List.map_congr_left fun a ha => (hx a (w1.mem_iff.1 ha)).symm

/-- Two points with equal values stay in the order they come in. -/
theorem merge_tie {a b : Cand n} {v : FVal} (ha : a.fvalue = v) (hb : b.fvalue = v) :
    toMatVec (USort.merge (Cand n)) [a, b] = .ok [a.x, b.x] := by
  have hlt : ∀ v : FVal, ¬ FVal.lt v v := fun v h => by cases v with | nan => exact h | num w => exact lt_irrefl w h
  have hno : ∀ c ∈ [a, b], ∀ d ∈ [a, b], ¬ FVal.lt d.fvalue c.fvalue := by
    intro c hc d hd
    have hv : ∀ c ∈ [a, b], c.fvalue = v := by
      intro c hc
      rcases List.mem_cons.1 hc with rfl | hc
      · exact ha
      · rw [List.mem_singleton.1 hc]; exact hb
    rw [hv c hc, hv d hd]
    exact hlt v
  have hsw : StrictWeakOn (fun a b : Cand n => FVal.lt b.fvalue a.fvalue) [a, b] :=
    ⟨fun c hc => hno c hc c hc, fun c hc d hd _ _ h => absurd h (hno c hc d hd),
      fun c hc _ _ d hd _ _ _ _ => ⟨hno c hc d hd, hno d hd c hc⟩⟩
  have hs : (USort.merge (Cand n)).sort (fun a b => FVal.lt b.fvalue a.fvalue) [a, b] = [a, b] := by
    simp only [USort.merge, if_pos hsw]
    apply List.mergeSort_of_pairwise
    rw [List.pairwise_pair, decide_eq_true_eq]
    exact hno b (by simp) a (by simp)
  unfold toMatVec
  rw [show unstableSort (USort.merge (Cand n)) (fun a b => FVal.lt b.fvalue a.fvalue) [a, b] =
    .ok ((USort.merge (Cand n)).sort (fun a b => FVal.lt b.fvalue a.fvalue) [a, b]) from if_pos hsw, Out.ok_bind, hs]
  rfl

/-- Training on two points and predicting a third one. -/
theorem pair_run {sol : Sol 1} (h1 : sol.sepcsqinv = 1) (h2 : sol.xmean = 0) {v : FVal} {p q : ℝ} (hpq : p ≠ q)
    (iter : ℤ) {u : ℕ → ℝ} (hu : ∀ i, 0 ≤ u i) {t : Cand 1} (ht : t.x = 0) :
    ∃ (r : Ranker 1) (a g : ℝ), 0 < a ∧ 0 < g ∧
      rsvmTrain true (USort.merge _) iter u none [⟨v, fun _ => p, 0⟩, ⟨v, fun _ => q, 0⟩] sol = .ok r ∧
      rsvmPredict true (USort.merge _) r [⟨v, fun _ => p, 0⟩, ⟨v, fun _ => q, 0⟩] sol [t] =
        .ok [{ t with fvalue := FVal.ofReal (a * (Real.exp (-g * (p * p)) - Real.exp (-g * (q * q)))) }] := by
  have hm := merge_tie (a := (⟨v, fun _ => p, 0⟩ : Cand 1)) (b := ⟨v, fun _ => q, 0⟩) (v := v) rfl rfl
  have hcov : covArg true sol = some (.diag 1) := by rw [covArg, if_pos rfl, h1]
  obtain ⟨r, a, g, hr, ha, hg, hp⟩ := pair_score (n := 1) (x := ([fun _ => p, fun _ => q] : List (Vec 1)).get)
    (y := ([fun _ => p, fun _ => q] : List (Vec 1)).get) (cov := some (.diag 1)) (mean := 0) (t := t.x) (z := 0)
    (by rw [encodePts]; simp only [sub_zero, one_mul]) (fun h => hpq (congrFun h 0))
    (by rw [encodePts, ht]; simp only [sub_zero, one_mul]) iter (fun i => u i) (fun i => hu i)
  refine ⟨some ⟨1, r⟩, a, g, ha, hg, ?_, ?_⟩
  · unfold rsvmTrain
    rw [if_neg (by simp), hm, Out.ok_bind, hcov, h2]
    simp only
    erw [hr]
    rfl
  · unfold rsvmPredict
    rw [show at! [t] 0 = .ok t from rfl, Out.ok_bind, hm, Out.ok_bind, hcov, h2]
    simp only [List.map_cons, List.map_nil]
    erw [hp]
    have e : ∀ w : ℝ, rbfK g (0 : Vec 1) (fun _ => w) = Real.exp (-g * (w * w)) := fun w => by
      simp [rbfK, sqNorm]
    show Except.ok [{ t with fvalue := FVal.ofReal (a * (rbfK g (0 : Vec 1) (fun _ => p) - rbfK g 0 (fun _ => q))) }] = _
    rw [e, e]

end Libcmaes
