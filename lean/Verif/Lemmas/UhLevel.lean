import Verif.Spec.UhLevel
import Verif.Lemmas.Uh
import Verif.Lemmas.Step
import Verif.Lemmas.Update
import Mathlib.Algebra.Order.Floor.Semifield

/-!
# The uncertainty level of uncertainty handling
-/

namespace Libcmaes

open Spec

variable {n : ℕ}

open Classical in
/-- In a sorted list, an element has as many smaller ones as its position says. -/
theorem nthElement_isNth {l : List ℝ} {k : ℕ} {x : ℝ} (h : nthElement l k = .ok x) : IsNth l k x := by
  unfold nthElement at h
  rw [idx_eq_ok] at h
  set m := l.mergeSort fun a b => decide (a ≤ b) with hm
  have hp : m.Perm l := List.mergeSort_perm _ _
  have hs : m.Pairwise fun a b => a ≤ b := by
    have := List.pairwise_mergeSort (le := fun a b : ℝ => decide (a ≤ b))
      (fun a b c h1 h2 => by simp only [decide_eq_true_eq] at *; exact h1.trans h2)
      (fun a b => by simp only [Bool.or_eq_true, decide_eq_true_eq]; exact le_total a b) l
    rw [← hm] at this
    exact this.imp fun h => by simpa using h
  obtain ⟨hk, hx⟩ := List.getElem?_eq_some_iff.1 h
  have hge : ∀ y ∈ m.drop k, x ≤ y := by
    intro y hy
    obtain ⟨i, hi, rfl⟩ := List.getElem_of_mem hy
    rw [List.getElem_drop, ← hx]
    rw [List.pairwise_iff_getElem] at hs
    rcases Nat.eq_zero_or_pos i with h0 | h0
    · subst h0; simp
    · exact hs k (k + i) hk (by rw [List.length_drop] at hi; omega) (by omega)
  have hle : ∀ y ∈ m.take (k + 1), y ≤ x := by
    intro y hy
    obtain ⟨i, hi, rfl⟩ := List.getElem_of_mem hy
    rw [List.getElem_take, ← hx]
    rw [List.pairwise_iff_getElem] at hs
    rw [List.length_take] at hi
    rcases Nat.lt_or_ge i k with h0 | h0
    · exact hs i k (by omega) hk h0
    · have : i = k := by omega
      subst this; exact le_refl _
  refine ⟨hp.mem_iff.1 (hx ▸ List.getElem_mem hk), ?_, ?_⟩
  · rw [← hp.countP_eq, ← List.take_append_drop k m, List.countP_append]
    have : (m.drop k).countP (fun y => decide (y < x)) = 0 := by
      rw [List.countP_eq_zero]
      intro y hy
      simp only [decide_eq_true_eq, not_lt]
      exact hge y hy
    rw [this]
    refine (List.countP_le_length).trans ?_
    rw [List.length_take]; omega
  · rw [← hp.countP_eq, ← List.take_append_drop (k + 1) m, List.countP_append]
    have : (m.take (k + 1)).countP (fun y => decide (y ≤ x)) = k + 1 := by
      rw [List.countP_eq_length.2 (fun y hy => by simpa using hle y hy), List.length_take]
      omega
    omega

theorem uhComp_limit {lambda : ℕ} {d : ℤ} {x : ℝ} (h : uhComp lambda d = .ok x) : IsRankLimit lambda d x := by
  have := nthElement_isNth h
  have e : ⌊((2 * lambda - 1 : ℕ) : ℝ) * (0.2 * 0.5)⌋.toNat = (2 * lambda - 1) / 10 := by
    rw [show ((2 * lambda - 1 : ℕ) : ℝ) * (0.2 * 0.5) = ((2 * lambda - 1 : ℕ) : ℝ) / (10 : ℕ) by push_cast; ring]
    rw [Int.floor_toNat, Nat.floor_div_natCast, Nat.floor_natCast]
  rw [e] at this
  exact this

theorem isNth_unique {l : List ℝ} {k : ℕ} {x y : ℝ} (hx : IsNth l k x) (hy : IsNth l k y) : x = y := by
  classical
  have key : ∀ x y : ℝ, IsNth l k x → IsNth l k y → ¬ x < y := by
    intro x y hx hy h
    have h1 := hx.2.2
    have h2 := hy.2.1
    have : (l.countP fun z => decide (z ≤ x)) ≤ l.countP fun z => decide (z < y) :=
      List.countP_mono_left fun z _ hz => by
        simp only [decide_eq_true_eq] at *
        exact lt_of_le_of_lt hz h
    have h3 : k < l.countP fun z => decide (z ≤ x) := by convert h1
    have h4 : (l.countP fun z => decide (z < y)) ≤ k := by convert h2
    omega
  exact le_antisymm (not_lt.1 (key y x hy hx)) (not_lt.1 (key x y hx hy))

/-- In a strictly sorted list the position is the rank. -/
theorem zipIdx_rank {α β : Type} {l : List α} {lt : α → α → Prop} [DecidableRel lt] (g : α → ℕ → β)
    (hs : l.Pairwise lt) (ha : ∀ a ∈ l, ∀ b ∈ l, lt a b → ¬ lt b a) (hirr : ∀ a ∈ l, ¬ lt a a) :
    (l.zipIdx.map fun q => g q.1 q.2) = l.map fun a => g a (l.countP fun b => decide (lt b a)) := by
  apply List.ext_getElem
  · simp
  · intro i h1 h2
    simp only [List.getElem_map, List.getElem_zipIdx, Nat.zero_add]
    have hi : i < l.length := by simpa using h2
    congr 1
    have e0 : ∀ q : α → Bool, l.countP q = (l.take i).countP q + (l.drop i).countP q := fun q => by
      rw [← List.countP_append, List.take_append_drop]
    rw [List.pairwise_iff_getElem] at hs
    have e1 : ((l.take i).countP fun b => decide (lt b l[i])) = i := by
      rw [List.countP_eq_length.2, List.length_take]
      · omega
      · intro b hb
        obtain ⟨j, hj, rfl⟩ := List.getElem_of_mem hb
        rw [List.length_take] at hj
        rw [List.getElem_take]
        simpa using hs j i (by omega) hi (by omega)
    have e2 : ((l.drop i).countP fun b => decide (lt b l[i])) = 0 := by
      rw [List.countP_eq_zero]
      intro b hb
      obtain ⟨j, hj, rfl⟩ := List.getElem_of_mem hb
      rw [List.length_drop] at hj
      rw [List.getElem_drop]
      simp only [decide_eq_true_eq]
      rcases Nat.eq_zero_or_pos j with h0 | h0
      · subst h0; exact hirr _ (List.getElem_mem hi)
      · exact ha _ (List.getElem_mem hi) _ (List.getElem_mem _) (hs i (i + j) hi (by omega) (by omega))
    rw [e0, e1, e2]
    rfl

theorem rankBy_perm {v : RankedCand → FVal} {l l' : List RankedCand} (h : l.Perm l') (c : RankedCand) :
    rankBy v l c = rankBy v l' c := by
  unfold rankBy
  exact h.countP_eq _

theorem rankBy_map {v : RankedCand → FVal} {g : RankedCand → RankedCand} (hg : ∀ c, v (g c) = v c)
    (l : List RankedCand) (c : RankedCand) : rankBy v (l.map g) c = rankBy v l c := by
  unfold rankBy
  rw [List.countP_map]
  congr 1
  funext d
  simp only [Function.comp, hg]

/-- Sorting by distinct values and numbering: each candidate gets its rank. -/
theorem sort_rank {β : Type} (u : USort RankedCand) {v : RankedCand → FVal} {l out : List RankedCand}
    (hd : DistinctBy v l) (h : unstableSort u (fun a b => FVal.lt (v a) (v b)) l = .ok out)
    (g : RankedCand → ℕ → β) :
    out.Perm l ∧ (out.zipIdx.map fun q => g q.1 q.2) = out.map fun c => g c (rankBy v l c) := by
  classical
  obtain ⟨-, p1, q1⟩ := unstableSort_ok h
  have o1 : out.Pairwise fun a b => FVal.lt (v a) (v b) := by
    have hd1 := (p1.pairwise_iff (R := fun a b : RankedCand => FVal.lt (v a) (v b) ∨
      FVal.lt (v b) (v a)) (fun {a b} h => h.symm)).2 hd.2
    exact (hd1.and q1).imp fun h => h.1.resolve_right h.2
  refine ⟨p1, ?_⟩
  rw [zipIdx_rank (lt := fun a b => FVal.lt (v a) (v b)) g o1 (fun a _ b _ => FVal.lt_asymm)
    (fun a _ => FVal.lt_irrefl _)]
  apply List.map_congr_left
  intro c _
  rw [← rankBy_perm p1]
  unfold rankBy
  congr 2

theorem uhTerm_eq {lambda lreev : ℕ} {lim : ℤ → ℝ} (hl : ∀ R, IsRankLimit lambda R (lim R)) {c : RankedCand} {t : ℝ}
    (h : uhTerm lambda lreev c = .ok t) :
    t = if lreev ≤ c.idx then 0 else 2 * |(c.delta : ℝ)| - lim (c.r2 - if c.r2 > c.r1 then 1 else 0)
      - lim (c.r1 - if c.r1 > c.r2 then 1 else 0) := by
  unfold uhTerm at h
  split_ifs at h ⊢ with h0
  · injection h with h; exact h.symm
  all_goals
    obtain ⟨a, ha, h⟩ := Out.bind_eq_ok.1 h
    obtain ⟨b, hb, h⟩ := Out.bind_eq_ok.1 h
    injection h with h
    rw [← h, isNth_unique (uhComp_limit ha) (hl _), isNth_unique (uhComp_limit hb) (hl _)]

theorem sum_filter_ite {α : Type} (l : List α) (q : α → Prop) [DecidablePred q] (f : α → ℝ) :
    (l.map fun c => if q c then 0 else f c).sum = ((l.filter fun c => decide (¬ q c)).map f).sum := by
  induction l with
  | nil => rfl
  | cons a l ih =>
    by_cases h : q a
    · simp [h, ih]
    · simp [h, ih]

theorem mapM_sum {α : Type} {f : α → Out ℝ} {g : α → ℝ} {l : List α} {ts : List ℝ} (h : l.mapM f = .ok ts)
    (hg : ∀ a ∈ l, ∀ t, f a = .ok t → t = g a) : ts.sum = (l.map g).sum := by
  have := Out.mapM_eq_ok.1 h
  clear h
  induction this with
  | nil => rfl
  | cons h1 _ ih =>
    rw [List.map_cons, List.sum_cons, List.sum_cons, ih fun a ha => hg a (List.mem_cons_of_mem _ ha),
      hg _ List.mem_cons_self _ h1]

/-- With distinct values, `uncertainty_handling` computes the uncertainty level. -/
theorem uncertaintyHandling_level {env : Env n} {s s' : Strat n} (h1 : DistinctBy RankedCand.fvalue s.sol.candsUh)
    (h2 : DistinctBy RankedCand.fvalueMut s.sol.candsUh) (h : s.uncertaintyHandling env = .ok s') {lim : ℤ → ℝ}
    (hl : ∀ R, IsRankLimit s.p.lambda R (lim R)) :
    s'.sol.suh = uncertaintyLevel lim s.sol.lambdaReev s.sol.candsUh := by
  unfold Strat.uncertaintyHandling at h
  obtain ⟨l1, a1, h'⟩ := Out.bind_eq_ok.1 h
  simp only at h'
  clear h
  obtain ⟨l2, a2, h⟩ := Out.bind_eq_ok.1 h'
  clear h'
  obtain ⟨p1, e1⟩ := sort_rank (β := RankedCand) env.usort h1 a1 (fun c i => { c with r1 := i })
  let g : RankedCand → RankedCand := fun c => { c with r1 := rankBy RankedCand.fvalue s.sol.candsUh c }
  rw [e1] at a2
  have h2' : DistinctBy RankedCand.fvalueMut (l1.map g) := by
    constructor
    · intro c hc
      obtain ⟨d, hd, rfl⟩ := List.mem_map.1 hc
      exact h2.1 d (p1.mem_iff.1 hd)
    · rw [List.pairwise_map]
      exact (p1.pairwise_iff (R := fun a b : RankedCand => FVal.lt a.fvalueMut b.fvalueMut ∨
        FVal.lt b.fvalueMut a.fvalueMut) (fun {a b} h => h.symm)).2 h2.2
  obtain ⟨p2, e2⟩ := sort_rank (β := RankedCand) env.usort h2' a2 (fun c i => { c with r2 := i })
  have hr2 : ∀ c, rankBy RankedCand.fvalueMut (l1.map g) c = rankBy RankedCand.fvalueMut s.sol.candsUh c := fun c => by
    rw [rankBy_map (g := g) (fun _ => rfl), rankBy_perm p1]
  rw [e2] at h
  rw [List.map_map] at h
  by_cases h0 : s.sol.lambdaReev = 0
  · rw [if_pos h0] at h; cases h
  rw [if_neg h0] at h
  obtain ⟨ts, a3, h⟩ := Out.bind_eq_ok.1 h
  obtain ⟨l4, a4, h⟩ := Out.bind_eq_ok.1 h
  obtain ⟨cs, a5, h⟩ := Out.bind_eq_ok.1 h
  injection h with h
  rw [← h]
  show ts.sum / (s.sol.lambdaReev : ℝ) = _
  rw [mapM_sum a3 (fun a _ t ht => uhTerm_eq hl ht), List.map_map, (p2.map _).sum_eq, List.map_map, (p1.map _).sum_eq]
  unfold uncertaintyLevel
  congr 1
  have : ∀ c : RankedCand, decide (c.idx < s.sol.lambdaReev) = decide (¬ s.sol.lambdaReev ≤ c.idx) := fun c => by
    simp
  rw [List.filter_congr fun c _ => this c, ← sum_filter_ite]
  congr 1
  apply List.map_congr_left
  intro c _
  simp only [Function.comp, hr2]
  by_cases hc : s.sol.lambdaReev ≤ c.idx
  · have e : ({ g c with r2 := rankBy RankedCand.fvalueMut s.sol.candsUh (g c) } : RankedCand).idx = c.idx := rfl
    rw [if_pos (show s.sol.lambdaReev ≤ (g c).idx from hc), if_pos (show s.sol.lambdaReev ≤ (g c).idx from hc), if_pos hc]
  · rw [if_neg (show ¬ s.sol.lambdaReev ≤ (g c).idx from hc), if_neg (show ¬ s.sol.lambdaReev ≤ (g c).idx from hc), if_neg hc]
    unfold rankExcess
    have er : rankBy RankedCand.fvalueMut s.sol.candsUh (g c) = rankBy RankedCand.fvalueMut s.sol.candsUh c := rfl
    simp only [er, g]
    set r1 := rankBy RankedCand.fvalue s.sol.candsUh c
    set r2 := rankBy RankedCand.fvalueMut s.sol.candsUh c
    have : (r2 : ℤ) - r1 - sgn ((r2 : ℤ) - r1) = rankChange r1 r2 := by
      unfold sgn rankChange
      split_ifs <;> omega
    rw [this]

theorem limit_exists {lambda : ℕ} (h : 1 ≤ lambda) : ∃ lim : ℤ → ℝ, ∀ R, IsRankLimit lambda R (lim R) := by
  choose lim hlim using uhComp_total h
  exact ⟨lim, fun R => uhComp_limit (hlim R)⟩

theorem limit_nonneg {lambda : ℕ} {R : ℤ} {x : ℝ} (h : IsRankLimit lambda R x) : 0 ≤ x := by
  obtain ⟨j, -, rfl⟩ := List.mem_map.1 h.1
  exact abs_nonneg _

/-- The limit at a rank of the population is at most one more than a tenth of the `2 λ - 1` positions. -/
theorem limit_le {lambda : ℕ} {R : ℕ} {x : ℝ} (hR : R < lambda) (h : IsRankLimit lambda R x) :
    x ≤ ((2 * lambda - 1) / 10 : ℕ) + 1 := by
  classical
  set k := (2 * lambda - 1) / 10 with hk
  by_contra hx
  push Not at hx
  have h2 := h.2.1
  rw [List.countP_map] at h2
  have hsub : (List.range' R (k + 1)).Sublist (List.range (2 * lambda - 1)) := by
    have e : List.range (2 * lambda - 1) = List.range' 0 R ++ (List.range' R (k + 1) ++
        List.range' (R + (k + 1)) (2 * lambda - 1 - (R + (k + 1)))) := by
      have a := List.range'_append (s := R) (m := k + 1) (n := 2 * lambda - 1 - (R + (k + 1))) (step := 1)
      have b := List.range'_append (s := 0) (m := R) (n := k + 1 + (2 * lambda - 1 - (R + (k + 1)))) (step := 1)
      rw [Nat.one_mul] at a
      rw [Nat.one_mul, Nat.zero_add] at b
      rw [a, b, List.range_eq_range']
      congr 1
      omega
    rw [e]
    exact ((List.sublist_append_left _ _).trans (List.sublist_append_right _ _))
  have h3 := hsub.countP_le (p := (fun y : ℝ => decide (y < x)) ∘ fun j : ℕ => |((j : ℝ) + 1) - (R : ℤ)|)
  rw [List.countP_eq_length.2, List.length_range'] at h3
  · have : k + 1 ≤ k := h3.trans (by convert h2)
    omega
  · intro j hj
    rw [List.mem_range'_1] at hj
    simp only [Function.comp, decide_eq_true_eq]
    have h1 : (R : ℝ) ≤ j := by exact_mod_cast hj.1
    have h4 : (j : ℝ) ≤ R + k := by exact_mod_cast (by omega : j ≤ R + k)
    push_cast
    rw [abs_of_nonneg (by linarith)]
    linarith

theorem rankBy_lt {v : RankedCand → FVal} {l : List RankedCand} {c : RankedCand} (hc : c ∈ l) :
    rankBy v l c < l.length := by
  unfold rankBy
  refine lt_of_le_of_ne List.countP_le_length fun h => ?_
  have := List.countP_eq_length.1 h c hc
  simp only [decide_eq_true_eq] at this
  exact FVal.lt_irrefl _ this

theorem excess_nonpos {lambda : ℕ} {lim : ℤ → ℝ} (hl : ∀ R, IsRankLimit lambda R (lim R)) {r1 r2 : ℕ}
    (h1 : r1 ≤ r2 + 1) (h2 : r2 ≤ r1 + 1) : rankExcess lim r1 r2 ≤ 0 := by
  unfold rankExcess
  have : rankChange r1 r2 = 0 := by unfold rankChange; split_ifs <;> omega
  rw [this]
  have a := limit_nonneg (hl ((r2 : ℤ) - if r1 < r2 then 1 else 0))
  have b := limit_nonneg (hl ((r1 : ℤ) - if r2 < r1 then 1 else 0))
  simp only [Int.cast_zero, abs_zero, mul_zero, zero_sub]
  linarith

theorem excess_pos {lambda : ℕ} {lim : ℤ → ℝ} (hl : ∀ R, IsRankLimit lambda R (lim R)) {r1 r2 : ℕ}
    (h1 : r1 < lambda) (h2 : r2 < lambda)
    (h : r1 + (2 * lambda - 1) / 10 + 3 ≤ r2 ∨ r2 + (2 * lambda - 1) / 10 + 3 ≤ r1) : 0 < rankExcess lim r1 r2 := by
  have key : ∀ r r' : ℕ, r < lambda → lim ((r : ℤ) - if r' < r then 1 else 0) ≤
      ((2 * lambda - 1) / 10 : ℕ) + 1 := by
    intro r r' hr
    have e : (r : ℤ) - (if r' < r then 1 else 0) = ((r - if r' < r then 1 else 0 : ℕ) : ℤ) := by
      split_ifs <;> omega
    rw [e]
    exact limit_le (by split_ifs <;> omega) (hl _)
  have a := key r2 r1 h2
  have b := key r1 r2 h1
  have hc : (((2 * lambda - 1) / 10 : ℕ) : ℝ) + 2 ≤ |(rankChange r1 r2 : ℝ)| := by
    have : (((2 * lambda - 1) / 10 : ℕ) : ℤ) + 2 ≤ |rankChange r1 r2| := by
      unfold rankChange
      rcases h with h | h
      · rw [if_pos (by omega), abs_of_nonneg (by omega)]; omega
      · rw [if_neg (by omega), if_pos (by omega), abs_of_neg (by omega)]; omega
    have h' : (((((2 * lambda - 1) / 10 : ℕ) : ℤ) + 2 : ℤ) : ℝ) ≤ ((|rankChange r1 r2| : ℤ) : ℝ) := Int.cast_le.2 this
    rw [Int.cast_abs] at h'
    push_cast at h' ⊢
    exact h'
  unfold rankExcess
  linarith

theorem level_nonpos {lim : ℤ → ℝ} {lreev : ℕ} {l : List RankedCand}
    (h : ∀ c ∈ l, c.idx < lreev → rankExcess lim (rankBy RankedCand.fvalue l c) (rankBy RankedCand.fvalueMut l c) ≤ 0) :
    uncertaintyLevel lim lreev l ≤ 0 := by
  unfold uncertaintyLevel
  apply div_nonpos_of_nonpos_of_nonneg _ (Nat.cast_nonneg _)
  have := List.sum_le_card_nsmul ((l.filter fun c => decide (c.idx < lreev)).map fun c =>
    rankExcess lim (rankBy RankedCand.fvalue l c) (rankBy RankedCand.fvalueMut l c)) (0 : ℝ) (fun x hx => by
    obtain ⟨c, hc, rfl⟩ := List.mem_map.1 hx
    obtain ⟨hc, hi⟩ := List.mem_filter.1 hc
    exact h c hc (by simpa using hi))
  simpa using this

theorem level_pos {lim : ℤ → ℝ} {lreev : ℕ} {l : List RankedCand} (h0 : ∃ c ∈ l, c.idx < lreev)
    (h : ∀ c ∈ l, c.idx < lreev → 0 < rankExcess lim (rankBy RankedCand.fvalue l c) (rankBy RankedCand.fvalueMut l c)) :
    0 < uncertaintyLevel lim lreev l := by
  obtain ⟨c, hc, hi⟩ := h0
  unfold uncertaintyLevel
  apply div_pos _ (by exact_mod_cast (by omega : 0 < lreev))
  apply List.sum_pos
  · intro x hx
    obtain ⟨c, hc, rfl⟩ := List.mem_map.1 hx
    obtain ⟨hc, hi⟩ := List.mem_filter.1 hc
    exact h c hc (by simpa using hi)
  · intro hnil
    rw [List.map_eq_nil_iff] at hnil
    have := List.filter_eq_nil_iff.1 hnil c hc
    simp at this
    omega

/-- What `tell` does to the step size under uncertainty handling. -/
theorem tell_uh {env : Env n} {s s' : Strat n} (huh : s.p.uh = true) (ht : s.p.tpa < 2) (h : s.tell env = .ok s') :
    ∃ t, s.uncertaintyHandling env = .ok t ∧ s'.sol.suh = t.sol.suh ∧
      s'.sol.sigma = s.sol.sigma * Real.exp (s.p.csigma / s.p.dsigma * (vnorm s'.sol.psigma / s.p.chi - 1)) *
        if 0 < s'.sol.suh then s.p.alphathuh else 1 := by
  obtain ⟨s1, tS, sol3, sol4, h1, h2, h3, h4, h5⟩ := Strat.tell_ok h
  unfold Strat.rank at h1
  rw [if_pos huh] at h1
  obtain ⟨cu, su, cs, e1⟩ := Strat.uncertaintyHandling_frame h1
  obtain ⟨c0, ck, cl, med, _, _, _, _, e3, _⟩ := Sol.updateBest_ok h3
  have hsg := covarianceUpdate_sigma h4
  obtain ⟨csq, hc, sc, ps, hs, pc, cov, sep, v, sg, xp, xm, e4⟩ := covarianceUpdate_frame h4
  obtain ⟨_, mx, mn, lv, le, e5⟩ := Strat.tellFinish_ok h5
  have a1 : s'.sol.suh = s1.sol.suh := by rw [e5, e4, e3]
  have a2 : sol4.suh = s'.sol.suh := by rw [e5]
  have a3 : s'.sol.psigma = sol4.psigma := by rw [e5]
  have a4 : sol3.sigma = s.sol.sigma := by rw [e3, e1]
  refine ⟨s1, h1, a1, ?_⟩
  have a5 : s'.sol.sigma = if s.p.uh = true ∧ sol4.suh > 0 then sol4.sigma * s.p.alphathuh else sol4.sigma := by rw [e5]
  rw [a5, hsg, a2, a3]
  unfold sigmaUpdate
  rw [if_pos ht, a4]
  by_cases hs : 0 < s'.sol.suh
  · rw [if_pos ⟨huh, hs⟩, if_pos hs]
  · rw [if_neg fun h => hs h.2, if_neg hs, mul_one]

end Libcmaes
