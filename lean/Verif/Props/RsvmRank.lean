import Verif.Lemmas.RsvmRank

/-! # C121: the ranking SVM depends on the ranking of its training set only -/

namespace Libcmaes

open Spec

variable {n : ℕ}

/-- **C121** (training and prediction): two training sets of the same points, stored in any order, with values that rank
the points alike and without ties, give the same ranker, and the same predictions; whatever `std::sort` does with equal
elements. -/
theorem C121_ranking (diag : Bool) (us us' : USort (Cand n)) {c c' : List (Cand n)} (hc : c ≠ []) (hn : NoNaN c)
    (hn' : NoNaN c') (ht : NoTies c) (hr : SameRanking c c') (iter : ℤ) (u : ℕ → ℝ) (r r' : Ranker n) (sol : Sol n) :
    rsvmTrain diag us iter u r c sol = rsvmTrain diag us' iter u r' c' sol ∧
    ∀ (q : Ranker n) (test : List (Cand n)),
      rsvmPredict diag us q c sol test = rsvmPredict diag us' q c' sol test := by
  have h := toMatVec_ranking (us := us) (us' := us') hn hn' ht hr hc
  have hc' : c' ≠ [] := by
    obtain ⟨g, hp, _⟩ := hr
    rintro rfl
    exact hc (List.map_eq_nil_iff.1 (List.nil_perm.1 hp))
  constructor
  · unfold rsvmTrain
    rw [if_neg (by simpa using hc), if_neg (by simpa using hc'), h]
  · intro q test
    unfold rsvmPredict
    rw [h]

/-- Values changed by an increasing function, and the set stored backwards, meet the hypothesis. -/
example (a b c : Vec n) : SameRanking [⟨.num 1, a, 0⟩, ⟨.num 2, b, 0⟩, ⟨.num 3, c, 0⟩]
      [⟨.num 300, c, 0⟩, ⟨.num 8, b, 0⟩, ⟨.num 5, a, 0⟩] ∧
    NoTies ([⟨.num 1, a, 0⟩, ⟨.num 2, b, 0⟩, ⟨.num 3, c, 0⟩] : List (Cand n)) := by
  have h12 : (1 : EReal) < 2 := by exact_mod_cast (by norm_num : (1 : ℝ) < 2)
  have h23 : (2 : EReal) < 3 := by exact_mod_cast (by norm_num : (2 : ℝ) < 3)
  have h13 : (1 : EReal) < 3 := h12.trans h23
  have k12 : (5 : EReal) < 8 := by exact_mod_cast (by norm_num : (5 : ℝ) < 8)
  have k23 : (8 : EReal) < 300 := by exact_mod_cast (by norm_num : (8 : ℝ) < 300)
  have k13 : (5 : EReal) < 300 := k12.trans k23
  classical
  refine ⟨⟨fun d => if d.fvalue = .num 1 then ⟨.num 5, d.x, 0⟩ else if d.fvalue = .num 2 then ⟨.num 8, d.x, 0⟩ else
    ⟨.num 300, d.x, 0⟩, ?_, ?_, ?_⟩, ?_⟩
  · simp only [List.map_cons, List.map_nil, FVal.num.injEq, if_true, h12.ne', h13.ne', h23.ne', if_false]
    exact List.reverse_perm [_, _, _]
  · intro d _
    simp only
    split_ifs <;> rfl
  · intro d hd e he
    simp only [List.mem_cons, List.not_mem_nil, or_false] at hd he
    rcases hd with rfl | rfl | rfl <;> rcases he with rfl | rfl | rfl <;>
      simp [FVal.lt, h12.ne', h13.ne', h12, h13, h23, k12, k13, k23, h12.not_gt, h13.not_gt, h23.not_gt,
        k12.not_gt, k13.not_gt, k23.not_gt]
  · simp [NoTies, FVal.lt, h12, h13, h23]

/-- **C121 is false of equal values.**  Two points with the same value, 1 and 3, on a line: the origin is scored above or
below zero according to which of the two comes first in the training set. -/
theorem C121_ties_false (sol : Sol 1) (h1 : sol.sepcsqinv = 1) (h2 : sol.xmean = 0) (v : FVal) (iter : ℤ) (u : ℕ → ℝ)
    (hu : ∀ i, 0 ≤ u i) (t : Cand 1) (ht : t.x = 0) :
    let a : Cand 1 := ⟨v, fun _ => 1, 0⟩
    let b : Cand 1 := ⟨v, fun _ => 3, 0⟩
    SameRanking [a, b] [b, a] ∧ ∃ r r' p q,
      rsvmTrain true (USort.merge _) iter u none [a, b] sol = .ok r ∧
      rsvmPredict true (USort.merge _) r [a, b] sol [t] = .ok [{ t with fvalue := FVal.ofReal p }] ∧ 0 < p ∧
      rsvmTrain true (USort.merge _) iter u none [b, a] sol = .ok r' ∧
      rsvmPredict true (USort.merge _) r' [b, a] sol [t] = .ok [{ t with fvalue := FVal.ofReal q }] ∧ q < 0 := by
  intro a b
  refine ⟨⟨id, by rw [List.map_id]; exact List.Perm.swap _ _ _, fun _ _ => rfl, fun _ _ _ _ => Iff.rfl⟩, ?_⟩
  have hlt : ∀ g : ℝ, 0 < g → Real.exp (-g * (3 * 3)) < Real.exp (-g * (1 * 1)) := fun g hg => by
    rw [Real.exp_lt_exp]
    linarith
  obtain ⟨r, α, g, hα, hg, hr, hp⟩ := pair_run h1 h2 (v := v) (p := 1) (q := 3) (by norm_num) iter hu ht
  obtain ⟨r', α', g', hα', hg', hr', hp'⟩ := pair_run h1 h2 (v := v) (p := 3) (q := 1) (by norm_num) iter hu ht
  exact ⟨r, r', _, _, hr, hp, mul_pos hα (sub_pos.2 (hlt g hg)), hr', hp',
    mul_neg_of_pos_of_neg hα' (sub_neg.2 (hlt g' hg'))⟩

end Libcmaes
