import Verif.Lemmas.Surrogate

/-! # The error of a surrogate model: lemmas -/

namespace Libcmaes

open Spec

variable {n : ℕ} {M : Type}

theorem two_mul_disorder_le (l : List (Cand n)) : 2 * disorder l ≤ l.length * (l.length - 1) := by
  induction l with
  | nil => simp [disorder]
  | cons c r ih =>
    have h : (r.filter fun d => decide (¬ FVal.le d.fvalue c.fvalue)).length ≤ r.length :=
      List.length_filter_le _ _
    simp only [disorder, List.length_cons, Nat.add_sub_cancel]
    rcases Nat.eq_zero_or_pos r.length with h0 | h0
    · rw [h0] at ih h ⊢; omega
    · obtain ⟨k, hk⟩ : ∃ k, r.length = k + 1 := ⟨r.length - 1, by omega⟩
      rw [hk] at ih h ⊢
      simp only [Nat.add_sub_cancel] at ih
      nlinarith

/-- Number of pairs, over all ordered pairs of a list. -/
noncomputable def pairCount (R : Cand n → Cand n → Prop) (l : List (Cand n)) : ℕ :=
  open Classical in (l.map fun a => l.countP fun b => decide (R a b)).sum

theorem pairCount_perm {R : Cand n → Cand n → Prop} {l l' : List (Cand n)} (h : l.Perm l') :
    pairCount R l = pairCount R l' := by
  classical
  unfold pairCount
  have : (l.map fun a => l.countP fun b => decide (R a b)) = l.map fun a => l'.countP fun b => decide (R a b) :=
    List.map_congr_left fun a _ => h.countP_eq _
  rw [this]
  exact (h.map _).sum_eq

theorem pairCount_cons {R : Cand n → Cand n → Prop} (a : Cand n) (l : List (Cand n)) (haa : ¬ R a a)
    (hba : ∀ b ∈ l, ¬ R b a) :
    pairCount R (a :: l) = (open Classical in l.countP fun b => decide (R a b)) + pairCount R l := by
  classical
  unfold pairCount
  simp only [List.map_cons, List.sum_cons, List.countP_cons]
  rw [if_neg (by simpa using haa), Nat.add_zero]
  congr 2
  refine List.map_congr_left fun b hb => ?_
  rw [if_neg (by simpa using hba b hb), Nat.add_zero]

theorem discordant_eq (g : Vec n → FVal) (l : List (Cand n)) :
    discordant g l = pairCount (fun a b => FVal.lt b.fvalue a.fvalue ∧ ¬ FVal.le (g b.x) (g a.x)) l := by
  unfold discordant pairCount
  congr!

/-- The pairs counted by the code, in a list sorted by descending value. -/
theorem discordant_le_disorder (g : Vec n → FVal) {l : List (Cand n)}
    (hs : l.Pairwise fun a b => ¬ FVal.lt a.fvalue b.fvalue) :
    pairCount (fun a b => FVal.lt b.fvalue a.fvalue ∧ ¬ FVal.le (g b.x) (g a.x)) l ≤
      disorder (l.map fun c => { c with fvalue := g c.x }) := by
  classical
  induction l with
  | nil => simp [pairCount, disorder]
  | cons a l ih =>
    obtain ⟨h1, h2⟩ := List.pairwise_cons.1 hs
    rw [pairCount_cons a l (fun h => FVal.lt_irrefl _ h.1) (fun b hb h => h1 b hb h.1)]
    simp only [List.map_cons, disorder]
    refine Nat.add_le_add ?_ (ih h2)
    rw [List.filter_map, List.length_map, List.countP_eq_length_filter]
    refine List.Sublist.length_le (List.monotone_filter_right l fun b hb => ?_)
    simp only [decide_eq_true_eq, Function.comp] at hb ⊢
    exact hb.2

theorem discordant_eq_disorder (g : Vec n → FVal) {l : List (Cand n)}
    (hs : l.Pairwise fun a b => ¬ FVal.lt a.fvalue b.fvalue) (hn : NoNaN l)
    (hd : l.Pairwise fun a b => a.fvalue ≠ b.fvalue) :
    pairCount (fun a b => FVal.lt b.fvalue a.fvalue ∧ ¬ FVal.le (g b.x) (g a.x)) l =
      disorder (l.map fun c => { c with fvalue := g c.x }) := by
  classical
  induction l with
  | nil => simp [pairCount, disorder]
  | cons a l ih =>
    obtain ⟨h1, h2⟩ := List.pairwise_cons.1 hs
    obtain ⟨d1, d2⟩ := List.pairwise_cons.1 hd
    rw [pairCount_cons a l (fun h => FVal.lt_irrefl _ h.1) (fun b hb h => h1 b hb h.1)]
    simp only [List.map_cons, disorder]
    rw [ih h2 (fun c hc => hn c (by simp [hc])) d2]
    congr 1
    rw [List.filter_map, List.length_map, List.countP_eq_length_filter]
    congr 1
    refine List.filter_congr fun b hb => ?_
    have hlt : FVal.lt b.fvalue a.fvalue := by
      have e1 := h1 b hb
      have e2 := d1 b hb
      have e3 := hn a (by simp)
      have e4 := hn b (by simp [hb])
      cases ha : a.fvalue with
      | nan => rw [ha] at e3; simp [FVal.IsNum] at e3
      | num u =>
        cases hb' : b.fvalue with
        | nan => rw [hb'] at e4; simp [FVal.IsNum] at e4
        | num v =>
          rw [ha, hb'] at e1 e2
          simp only [FVal.lt] at e1 ⊢
          exact lt_of_le_of_ne (not_lt.1 e1) fun h => e2 (by rw [h])
    simp [hlt]

theorem sameOrder_of_pairCount {g : Vec n → FVal} {l : List (Cand n)}
    (h : pairCount (fun a b => FVal.lt b.fvalue a.fvalue ∧ ¬ FVal.le (g b.x) (g a.x)) l = 0) :
    SameOrder g l := by
  classical
  intro a ha b hb hlt
  by_contra hc
  unfold pairCount at h
  rw [List.sum_eq_zero_iff] at h
  have := h _ (List.mem_map_of_mem ha)
  rw [List.countP_eq_zero] at this
  exact this b hb (by simp [hlt, hc])

theorem pairCount_of_sameOrder {g : Vec n → FVal} {l : List (Cand n)} (h : SameOrder g l) :
    pairCount (fun a b => FVal.lt b.fvalue a.fvalue ∧ ¬ FVal.le (g b.x) (g a.x)) l = 0 := by
  classical
  unfold pairCount
  rw [List.sum_eq_zero_iff]
  intro k hk
  obtain ⟨a, ha, rfl⟩ := List.mem_map.1 hk
  rw [List.countP_eq_zero]
  intro b hb hc
  simp only [decide_eq_true_eq] at hc
  exact hc.2 (h a ha b hb hc.1)

namespace Surr

theorem strictWeakOn_desc {l : List (Cand n)} (hn : NoNaN l) :
    StrictWeakOn (fun a b => FVal.lt b.fvalue a.fvalue) l := by
  have h := (strictWeakOn_fval (fun c : Cand n => c.fvalue.neg) l).2 (Or.inl fun c hc => by
    have := hn c hc
    cases h : c.fvalue with
    | nan => rw [h] at this; simp [FVal.IsNum] at this
    | num v => simp [FVal.neg, FVal.IsNum])
  have e : (fun a b : Cand n => FVal.lt a.fvalue.neg b.fvalue.neg) = fun a b => FVal.lt b.fvalue a.fvalue := by
    funext a b
    cases a.fvalue <;> cases b.fvalue <;> simp [FVal.lt, FVal.neg]
  rw [← e]
  exact h

/-- `compute_error` with a prediction function that sets values only. -/
theorem computeError_ok {sf : SurrFuncs n M} (honly : OnlyValues sf) {t : Surr n M} {test : List (Cand n)}
    {e : Option ℝ} (hk : 2 ≤ test.length) (h : t.computeError sf test = .ok e) :
    ∃ v, e = some v ∧ 0 ≤ v ∧ v ≤ 1 := by
  unfold computeError at h
  obtain ⟨ctest, h1, h⟩ := Out.bind_eq_ok.1 h
  obtain ⟨q, h2, h⟩ := Out.bind_eq_ok.1 h
  injection h with h
  rw [if_neg (by omega)] at h
  have hl : ctest.length = test.length := by
    unfold unstableSort at h1
    split_ifs at h1 with hsw
    injection h1 with h1
    rw [← h1]
    exact (sf.usort.perm _ _ hsw).length_eq
  have hq : q.length = test.length := by rw [← hl]; exact (honly _ _ _ _ _ h2).length_eq.symm
  have hd := two_mul_disorder_le q
  rw [hq] at hd
  have hk' : (2 : ℝ) ≤ test.length := by exact_mod_cast hk
  have hd' : 2 * (disorder q : ℝ) ≤ test.length * (test.length - 1) := by
    have : ((test.length - 1 : ℕ) : ℝ) = (test.length : ℝ) - 1 := by
      rw [Nat.cast_sub (by omega)]; simp
    rw [← this]
    exact_mod_cast hd
  have hpos : 0 < (test.length : ℝ) * (test.length - 1) := by nlinarith
  refine ⟨_, h.symm, by positivity, ?_⟩
  rw [← mul_div_assoc, div_le_one hpos]
  linarith

theorem computeError_pointwise {sf : SurrFuncs n M} {g} (hp : Pointwise sf g) {t : Surr n M}
    {test : List (Cand n)} (hk : 2 ≤ test.length) (hn : NoNaN test) :
    ∃ ctest : List (Cand n), ctest.Perm test ∧ (ctest.Pairwise fun a b => ¬ FVal.lt a.fvalue b.fvalue) ∧
      t.computeError sf test = .ok (some
        (disorder (ctest.map fun c => { c with fvalue := g t.m t.tset t.s.sol c.x }) *
          (2 / ((test.length : ℝ) * (test.length - 1))))) := by
  have hsw := strictWeakOn_desc hn
  refine ⟨_, sf.usort.perm _ _ hsw, sf.usort.sorted _ _ hsw, ?_⟩
  unfold computeError unstableSort
  rw [if_pos hsw, Out.ok_bind, hp, Out.ok_bind]
  simp only
  rw [if_neg (by omega)]
  rfl

theorem setTestError_range {t : Surr n M} {v e : ℝ} (hv : t.smooth = some v) (h0 : 0 ≤ v) (h1 : v ≤ 1)
    (he0 : 0 ≤ e) (he1 : e ≤ 1) : ∃ w, (t.setTestError (some e)).smooth = some w ∧ 0 ≤ w ∧ w ≤ 1 := by
  unfold setTestError
  rw [hv]
  exact ⟨_, rfl, by nlinarith, by nlinarith⟩

theorem SimpleStep.smooth {sf : SurrFuncs n M} {t t' : Surr n M} {b : Bool} {c : List (Vec n × FVal)}
    (hs : SimpleStep sf t t' b c) (honly : OnlyValues sf) (hk : 2 ≤ t.s.sol.cands.length)
    (h0 : ∃ v, t.smooth = some v ∧ 0 ≤ v ∧ v ≤ 1) : ∃ v, t'.smooth = some v ∧ 0 ≤ v ∧ v ≤ 1 := by
  cases b with
  | false => rw [(hs.quiet rfl).2.2.1]; exact h0
  | true =>
    obtain ⟨_, added, _, _, _, _, q1, q2, _⟩ := hs.busy rfl
    by_cases hc : t.s.niter ≠ 0 ∧ t.full = true
    · obtain ⟨sol1, e, h1, h2, _, h3, _⟩ := q1 hc
      obtain ⟨v, rfl, v0, v1⟩ := computeError_ok honly hk h2
      obtain ⟨w, hw, w0, w1⟩ := h0
      rw [h3]
      exact setTestError_range hw w0 w1 v0 v1
    · rw [(q2 hc).1]; exact h0

end Surr

end Libcmaes
