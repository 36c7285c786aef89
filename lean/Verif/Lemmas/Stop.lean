import Verif.Spec.Stop
import Verif.Lemmas.Sort
import Verif.Lemmas.Tell

/-! # The stopping tests compute the documented conditions -/

namespace Libcmaes

open Spec

variable {n : ℕ}

/-! ### Ranges of values -/

theorem Spec.Val.isNum {v : FVal} (h : Val v) : v.IsNum := by
  rcases h with rfl | ⟨r, _, rfl⟩ <;> trivial

theorem lastN_eq_reverse {α : Type} (k : ℕ) (l : List α) : lastN k l = (l.reverse.take k).reverse := by
  unfold lastN
  rw [List.take_reverse, List.reverse_reverse]

theorem mem_lastN_iff {α : Type} {k : ℕ} {l : List α} {a : α} : a ∈ lastN k l ↔ a ∈ l.reverse.take k := by
  rw [lastN_eq_reverse, List.mem_reverse]

/-- The two extremes found by the loop over finite values. -/
theorem range_fold (l : List (Cand n)) (lo hi : ℝ) (h : ∀ c ∈ l, ∃ r : ℝ, c.fvalue = .num (r : EReal)) :
    ∃ lo' hi' : ℝ, l.foldl (fun r c => (FVal.stdMin c.fvalue r.1, FVal.stdMax c.fvalue r.2))
        (FVal.num (lo : EReal), FVal.num (hi : EReal)) = (.num lo', .num hi') ∧
      lo' ≤ lo ∧ hi ≤ hi' ∧
      (∀ c ∈ l, ∀ r : ℝ, c.fvalue = .num (r : EReal) → lo' ≤ r ∧ r ≤ hi') ∧
      (lo' = lo ∨ ∃ c ∈ l, c.fvalue = .num (lo' : EReal)) ∧
      (hi' = hi ∨ ∃ c ∈ l, c.fvalue = .num (hi' : EReal)) := by
  induction l generalizing lo hi with
  | nil => exact ⟨lo, hi, rfl, le_rfl, le_rfl, by simp, Or.inl rfl, Or.inl rfl⟩
  | cons c l ih =>
    obtain ⟨r, hr⟩ := h c (by simp)
    have e1 : FVal.stdMin c.fvalue (.num (lo : EReal)) = .num ((min r lo : ℝ) : EReal) := by
      rw [hr]; unfold FVal.stdMin
      by_cases hc : lo < r
      · rw [if_pos (by simpa [FVal.lt] using hc), min_eq_right hc.le]
      · rw [if_neg (by simpa [FVal.lt] using hc), min_eq_left (not_lt.1 hc)]
    have e2 : FVal.stdMax c.fvalue (.num (hi : EReal)) = .num ((max r hi : ℝ) : EReal) := by
      rw [hr]; unfold FVal.stdMax
      by_cases hc : r < hi
      · rw [if_pos (by simpa [FVal.lt] using hc), max_eq_right hc.le]
      · rw [if_neg (by simpa [FVal.lt] using hc), max_eq_left (not_lt.1 hc)]
    obtain ⟨lo', hi', f1, f2, f3, f4, f5, f6⟩ := ih (min r lo) (max r hi) fun d hd => h d (by simp [hd])
    refine ⟨lo', hi', ?_, f2.trans (min_le_right _ _), (le_max_right _ _).trans f3, ?_, ?_, ?_⟩
    · rw [List.foldl_cons, e1, e2, f1]
    · intro d hd q hq
      rcases List.mem_cons.1 hd with rfl | hd
      · rw [hr] at hq
        injection hq with hq
        have : r = q := by exact_mod_cast hq
        subst this
        exact ⟨f2.trans (min_le_left _ _), (le_max_left _ _).trans f3⟩
      · exact f4 d hd q hq
    · rcases f5 with e | ⟨d, hd, hq⟩
      · rcases min_choice r lo with m | m
        · exact Or.inr ⟨c, by simp, by rw [e, m, hr]⟩
        · exact Or.inl (e.trans m)
      · exact Or.inr ⟨d, by simp [hd], hq⟩
    · rcases f6 with e | ⟨d, hd, hq⟩
      · rcases max_choice r hi with m | m
        · exact Or.inr ⟨c, by simp, by rw [e, m, hr]⟩
        · exact Or.inl (e.trans m)
      · exact Or.inr ⟨d, by simp [hd], hq⟩

/-- Once `+∞` is among the values, the upper end is `+∞`. -/
theorem range_fold_top (l : List (Cand n)) (lo : ℝ) (hi : EReal) (h : ∀ c ∈ l, Val c.fvalue)
    (ht : hi = ⊤ ∨ ∃ c ∈ l, c.fvalue = .num ⊤) :
    ∃ lo' : ℝ, l.foldl (fun r c => (FVal.stdMin c.fvalue r.1, FVal.stdMax c.fvalue r.2))
        (FVal.num (lo : EReal), FVal.num hi) = (.num lo', .num ⊤) := by
  induction l generalizing lo hi with
  | nil =>
    rcases ht with rfl | ⟨c, hc, _⟩
    · exact ⟨lo, rfl⟩
    · simp at hc
  | cons c l ih =>
    rw [List.foldl_cons]
    obtain ⟨lo', e1⟩ : ∃ lo' : ℝ, FVal.stdMin c.fvalue (.num (lo : EReal)) = .num (lo' : EReal) := by
      unfold FVal.stdMin
      rcases h c (by simp) with e | ⟨r, _, e⟩
      · rw [e, if_pos (by simp [FVal.lt])]; exact ⟨lo, rfl⟩
      · split_ifs
        · exact ⟨lo, rfl⟩
        · exact ⟨r, e⟩
    obtain ⟨a, ea⟩ : ∃ a, c.fvalue = .num a := by
      rcases h c (by simp) with e | ⟨r, _, e⟩ <;> exact ⟨_, e⟩
    have e2 : FVal.stdMax c.fvalue (.num hi) = .num (max a hi) := by
      rw [ea]; unfold FVal.stdMax
      by_cases hc : a < hi
      · rw [if_pos (by simpa [FVal.lt] using hc), max_eq_right hc.le]
      · rw [if_neg (by simpa [FVal.lt] using hc), max_eq_left (not_lt.1 hc)]
    rw [e1, e2]
    refine ih lo' _ (fun d hd => h d (by simp [hd])) ?_
    rcases ht with rfl | ⟨d, hd, hq⟩
    · left; simp
    · rcases List.mem_cons.1 hd with rfl | hd
      · left
        rw [ea] at hq; injection hq with hq
        rw [hq]; simp
      · exact Or.inr ⟨d, hd, hq⟩

theorem sub_num (x y : ℝ) : FVal.sub (.num (x : EReal)) (.num (y : EReal)) = .num ((x - y : ℝ) : EReal) := by
  unfold FVal.sub FVal.neg FVal.add
  simp only
  rw [if_neg (by
    rintro (⟨h, _⟩ | ⟨h, _⟩)
    · exact EReal.coe_ne_top _ h
    · exact EReal.coe_ne_bot _ h)]
  norm_cast

theorem abs_num (x : ℝ) : FVal.abs (.num (x : EReal)) = .num ((|x| : ℝ) : EReal) := by
  unfold FVal.abs
  congr 1

theorem sub_top (x : ℝ) : FVal.abs (FVal.sub (.num ⊤) (.num (x : EReal))) = .num ⊤ := by
  unfold FVal.sub FVal.neg FVal.add
  simp only
  rw [if_neg (by
    rintro (⟨_, h⟩ | ⟨h, _⟩)
    · exact EReal.coe_ne_bot (-x) (by exact_mod_cast h)
    · exact absurd h (by simp))]
  unfold FVal.abs
  congr 1

/-- The test of TOLHISTFUN on a list of values. -/
theorem histRange_lt {l : List (Cand n)} {k : ℕ} {t : ℝ} (hk : 0 < k) (hl : k ≤ l.length)
    (h : ∀ c ∈ l, Val c.fvalue) :
    FVal.lt (FVal.abs (FVal.sub (histRange l k).2 (histRange l k).1)) (FVal.ofReal t) ↔
      ∀ a ∈ lastN k l, ∀ b ∈ lastN k l, ∃ x y : ℝ, a.fvalue = .num x ∧ b.fvalue = .num y ∧ |x - y| < t := by
  have hv : ∀ c ∈ l.reverse.take k, Val c.fvalue := fun c hc =>
    h c (List.mem_reverse.1 (List.mem_of_mem_take hc))
  unfold histRange FVal.ofReal
  by_cases ht : ∃ c ∈ l.reverse.take k, c.fvalue = .num ⊤
  · obtain ⟨lo', e⟩ := range_fold_top (l.reverse.take k) dblMax ((-dblMax : ℝ) : EReal) hv (Or.inr ht)
    rw [e]
    simp only
    rw [sub_top]
    constructor
    · intro h; simp [FVal.lt] at h
    · intro h
      obtain ⟨c, hc, hq⟩ := ht
      obtain ⟨x, y, h1, _⟩ := h c (mem_lastN_iff.2 hc) c (mem_lastN_iff.2 hc)
      rw [hq] at h1; injection h1 with h1
      exact absurd h1.symm (EReal.coe_ne_top x)
  · have hfin : ∀ c ∈ l.reverse.take k, ∃ r : ℝ, |r| ≤ dblMax ∧ c.fvalue = .num (r : EReal) := by
      intro c hc
      rcases hv c hc with e | h
      · exact absurd ⟨c, hc, e⟩ ht
      · exact h
    obtain ⟨lo', hi', e, f2, f3, f4, f5, f6⟩ := range_fold (l.reverse.take k) dblMax (-dblMax)
      fun c hc => let ⟨r, _, h⟩ := hfin c hc; ⟨r, h⟩
    rw [e]
    simp only
    rw [sub_num, abs_num]
    have hne : l.reverse.take k ≠ [] := by
      intro h0
      have := congrArg List.length h0
      simp at this
      rcases this with h0 | h0
      · omega
      · subst h0; simp at hl; omega
    obtain ⟨c0, hc0⟩ := List.exists_mem_of_ne_nil _ hne
    obtain ⟨r0, hb0, hr0⟩ := hfin c0 hc0
    obtain ⟨g1, g2⟩ := f4 c0 hc0 r0 hr0
    obtain ⟨b1, b2⟩ := abs_le.1 hb0
    have hlo : ∃ c ∈ l.reverse.take k, c.fvalue = .num (lo' : EReal) := by
      rcases f5 with h | h
      · have : r0 = lo' := by linarith
        exact ⟨c0, hc0, this ▸ hr0⟩
      · exact h
    have hhi : ∃ c ∈ l.reverse.take k, c.fvalue = .num (hi' : EReal) := by
      rcases f6 with h | h
      · have : r0 = hi' := by linarith
        exact ⟨c0, hc0, this ▸ hr0⟩
      · exact h
    have hlt : FVal.lt (.num ((|hi' - lo'| : ℝ) : EReal)) (.num (t : EReal)) ↔ |hi' - lo'| < t := by
      simp [FVal.lt]
    rw [hlt]
    constructor
    · intro h a ha b hb
      obtain ⟨x, _, hx⟩ := hfin a (mem_lastN_iff.1 ha)
      obtain ⟨y, _, hy⟩ := hfin b (mem_lastN_iff.1 hb)
      refine ⟨x, y, hx, hy, ?_⟩
      obtain ⟨a1, a2⟩ := f4 a (mem_lastN_iff.1 ha) x hx
      obtain ⟨b1, b2⟩ := f4 b (mem_lastN_iff.1 hb) y hy
      have := (abs_lt.1 h).2
      rw [abs_lt]; constructor <;> linarith
    · intro h
      obtain ⟨a, ha, ea⟩ := hhi
      obtain ⟨b, hb, eb⟩ := hlo
      obtain ⟨x, y, hx, hy, hxy⟩ := h a (mem_lastN_iff.2 ha) b (mem_lastN_iff.2 hb)
      rw [ea] at hx; injection hx with hx
      rw [eb] at hy; injection hy with hy
      have hx' : hi' = x := by exact_mod_cast hx
      have hy' : lo' = y := by exact_mod_cast hy
      rw [hx', hy']; exact hxy

theorem crit_tolHistFun {p : Params n} {s : Sol n} (h : StopReady p s) [Decidable (TolHistFun p s)] :
    critTolHistFun p s = .ok (if TolHistFun p s then 1 else 0) := by
  unfold critTolHistFun
  rw [if_neg h.lambda.ne']
  simp only
  have hm := h.maxHist
  set k := min s.maxHist.toNat (10 + 30 * n / p.lambda) with hk
  have hk' : min s.maxHist (10 + ((30 * n / p.lambda : ℕ) : ℤ)) = (k : ℤ) := by omega
  have hkpos : 0 < k := by
    have : 0 < s.maxHist.toNat := by omega
    rw [hk]; exact lt_min this (by positivity)
  rw [hk']
  by_cases hlt : min (k : ℤ) (s.bestHist.length : ℤ) < k
  · rw [if_pos hlt, if_neg]
    rintro ⟨h1, _⟩
    have : k ≤ s.bestHist.length := h1
    omega
  · rw [if_neg hlt]
    have hle : k ≤ s.bestHist.length := by omega
    have he : (min (k : ℤ) (s.bestHist.length : ℤ)).toNat = k := by omega
    rw [he]
    have := histRange_lt (t := max p.ftolerance 1e-12) hkpos hle h.best
    congr 1
    refine if_congr ?_ rfl rfl
    rw [this]
    exact ⟨fun h => ⟨hle, h⟩, fun h => h.2⟩

/-! ### Medians -/

theorem Spec.Val.num {v : FVal} (h : Val v) : ∃ a : EReal, v = .num a ∧ a ≠ ⊥ := by
  rcases h with rfl | ⟨r, _, rfl⟩
  · exact ⟨⊤, rfl, by simp⟩
  · exact ⟨r, rfl, EReal.coe_ne_bot r⟩

theorem half_add {a b : EReal} (ha : a ≠ ⊥) (hb : b ≠ ⊥) :
    FVal.half (FVal.add (.num a) (.num b)) = .num ((a + b) * ((1 / 2 : ℝ) : EReal)) := by
  unfold FVal.add
  simp only
  rw [if_neg (by rintro (⟨_, h⟩ | ⟨h, _⟩); exacts [hb h, ha h])]
  unfold FVal.half
  norm_num

theorem half_self (a : EReal) : (a + a) * ((1 / 2 : ℝ) : EReal) = a := by
  induction a with
  | bot => rw [EReal.bot_add, EReal.bot_mul_coe_of_pos (by norm_num)]
  | top => rw [EReal.top_add_top, EReal.top_mul_coe_of_pos (by norm_num)]
  | coe x => norm_cast; ring

theorem vals_num {l : List FVal} (h : ∀ v ∈ l, Val v) :
    ∃ es : List EReal, l = es.map .num ∧ ∀ a ∈ es, a ≠ ⊥ := by
  induction l with
  | nil => exact ⟨[], rfl, by simp⟩
  | cons v l ih =>
    obtain ⟨es, e, he⟩ := ih fun w hw => h w (by simp [hw])
    obtain ⟨a, ea, ha⟩ := (h v (by simp)).num
    exact ⟨a :: es, by rw [List.map_cons, ← e, ea], by simpa using ⟨ha, he⟩⟩

theorem map_num_inj {l1 l2 : List EReal} (h : l1.map FVal.num = l2.map FVal.num) : l1 = l2 :=
  List.map_injective_iff.2 (fun a b h => by injection h) h

/-- The median of the code. -/
theorem medianSorted_num {es : List EReal} (hne : es ≠ []) (hb : ∀ a ∈ es, a ≠ ⊥) :
    ∃ m, medianSorted (es.map .num) = .ok (.num m) ∧ IsMedian es m := by
  have hsw : StrictWeakOn FVal.lt (es.map FVal.num) :=
    (strictWeakOn_fval (fun v : FVal => v) _).2 (Or.inl (by
      intro v hv
      obtain ⟨a, _, rfl⟩ := List.mem_map.1 hv
      trivial))
  obtain ⟨t, ht⟩ : ∃ t, stableSort FVal.lt (es.map FVal.num) = .ok t := by
    unfold stableSort; rw [if_pos hsw]; exact ⟨_, rfl⟩
  have hs := (stableSort_eq_ok ht).2
  obtain ⟨ts, hts, hmem⟩ : ∃ ts : List EReal, t = ts.map .num ∧ ts.Perm es := by
    have hp := hs.perm
    have : ∀ v ∈ t, ∃ a, v = FVal.num a := by
      intro v hv
      obtain ⟨a, _, rfl⟩ := List.mem_map.1 (hp.mem_iff.1 hv)
      exact ⟨a, rfl⟩
    obtain ⟨ts, hts⟩ : ∃ ts : List EReal, t = ts.map FVal.num := by
      clear hp ht hs
      induction t with
      | nil => exact ⟨[], rfl⟩
      | cons v l ih =>
        obtain ⟨ts, e⟩ := ih fun w hw => this w (by simp [hw])
        obtain ⟨a, rfl⟩ := this v (by simp)
        exact ⟨a :: ts, by rw [List.map_cons, ← e]⟩
    refine ⟨ts, hts, ?_⟩
    rw [hts] at hp
    exact (List.map_perm_map_iff fun a b h => by injection h).1 hp
  have hlen : t.length = ts.length := by rw [hts]; simp
  have hsort : ts.Pairwise (· ≤ ·) := by
    have := hs.sorted
    rw [hts, List.pairwise_map] at this
    refine this.imp ?_
    intro a b h
    simpa [FVal.lt] using h
  have hpos : 0 < ts.length := by
    rw [hmem.length_eq]
    exact List.length_pos_of_ne_nil hne
  have hget : ∀ i, i < ts.length → ∃ a, ts[i]? = some a ∧ a ≠ ⊥ ∧ idx t i = .ok (.num a) := by
    intro i hi
    refine ⟨ts[i], List.getElem?_eq_getElem hi, hb _ (hmem.mem_iff.1 (List.getElem_mem hi)), ?_⟩
    rw [idx_eq_ok, hts, List.getElem?_map, List.getElem?_eq_getElem hi]; rfl
  unfold medianSorted
  rw [ht, Out.ok_bind]
  unfold Sol.medianOf
  rw [if_neg (by omega)]
  by_cases hev : t.length % 2 = 0
  · rw [if_pos hev]
    obtain ⟨a, a1, a2, a3⟩ := hget (t.length / 2 - 1) (by omega)
    obtain ⟨b, b1, b2, b3⟩ := hget (t.length / 2) (by omega)
    rw [a3, Out.ok_bind, b3, Out.ok_bind, half_add a2 b2]
    refine ⟨_, rfl, ts, hmem, hsort, a, b, ?_, ?_, rfl⟩
    · rw [← a1]; congr 1; omega
    · rw [← b1]; congr 1; omega
  · rw [if_neg hev]
    obtain ⟨a, a1, a2, a3⟩ := hget (t.length / 2) (by omega)
    rw [a3]
    refine ⟨a, rfl, ts, hmem, hsort, a, a, ?_, ?_, (half_self a).symm⟩
    · rw [← a1]; congr 1; omega
    · rw [← a1]; congr 1; omega

theorem IsMedian_unique {l : List EReal} {a b : EReal} (ha : IsMedian l a) (hb : IsMedian l b) : a = b := by
  obtain ⟨t, p1, s1, x, y, h1, h2, e⟩ := ha
  obtain ⟨t', p2, s2, x', y', h1', h2', e'⟩ := hb
  have : t = t' := (p1.trans p2.symm).eq_of_pairwise (fun a b _ _ h h' => le_antisymm h h') s1 s2
  subst this
  rw [h1] at h1'; rw [h2] at h2'
  injection h1' with h1'; injection h2' with h2'
  rw [e, e', h1', h2']

theorem crit_stagnation {p : Params n} {s : Sol n} (h : StopReady p s) [Decidable (Stagnation s)] :
    critStagnation p s = .ok (if Stagnation s then 6 else 0) := by
  unfold critStagnation
  by_cases hl : s.bfvalues.length < 20 ∨ s.medianFvalues.length < 20
  · rw [if_pos hl, if_neg]
    rintro ⟨h1, h2, _⟩
    omega
  · rw [if_neg hl]
    push Not at hl
    obtain ⟨bs, eb, hb⟩ := vals_num h.bf
    obtain ⟨ms, em, hm⟩ := vals_num (l := s.medianFvalues.take 20) fun v hv => h.med v (List.mem_of_mem_take hv)
    have lb : bs.length = s.bfvalues.length := by rw [eb]; simp
    have lm : ms.length = 20 := by
      have := congrArg List.length em
      rw [List.length_take, List.length_map] at this
      omega
    obtain ⟨a, ha, ia⟩ := medianSorted_num (es := bs) (fun e => by rw [e] at lb; simp at lb; omega) hb
    obtain ⟨b, hb', ib⟩ := medianSorted_num (es := ms) (fun e => by rw [e] at lm; simp at lm) hm
    rw [eb, ha, Out.ok_bind, em, hb', Out.ok_bind]
    show Except.ok _ = _
    congr 1
    refine if_congr ?_ rfl rfl
    constructor
    · intro hle
      exact ⟨hl.1, hl.2, bs, ms, a, b, eb, em, ia, ib, hle⟩
    · rintro ⟨_, _, bs', ms', a', b', e1, e2, i1, i2, hle⟩
      have e1' : bs = bs' := map_num_inj (eb.symm.trans e1)
      have e2' : ms = ms' := map_num_inj (em.symm.trans e2)
      subst e1' e2'
      rw [IsMedian_unique ia i1, IsMedian_unique ib i2]
      exact hle

/-! ### The other criteria -/

theorem zip_lastN {α β : Type} (a : List α) (b : List β) (da : α) (db : β) (k : ℕ) (h : b.length = a.length) :
    (lastN k a).zip (lastN k b) = ((List.range (min k a.length)).map fun i =>
      (a.getD (a.length - 1 - i) da, b.getD (a.length - 1 - i) db)).reverse := by
  unfold lastN
  apply List.ext_getElem
  · simp [h]; omega
  · intro i h1 h2
    simp only [List.length_zip, List.length_drop, h] at h1
    rw [List.getElem_zip, List.getElem_reverse, List.getElem_map, List.getElem_range]
    simp only [List.getElem_drop, List.length_map, List.length_range]
    have e : a.length - 1 - (min k a.length - 1 - i) = a.length - k + i := by omega
    rw [e, List.getD_eq_getElem?_getD, List.getD_eq_getElem?_getD, List.getElem?_eq_getElem (by omega), List.getElem?_eq_getElem (by omega)]
    simp only [Option.getD_some]
    congr 1
    congr 1
    rw [h]

theorem crit_equalFunVals {p : Params n} {s : Sol n} (h : StopReady p s) [Decidable (EqualFunValsCoded s)] :
    critEqualFunVals p s = .ok (if EqualFunValsCoded s then 5 else 0) := by
  unfold critEqualFunVals
  simp only
  by_cases hlt : ((min n s.bestHist.length : ℕ) : ℤ) < s.maxHist
  · rw [if_pos hlt, if_neg]
    rintro ⟨h1, h2, _⟩
    omega
  · rw [if_neg hlt, if_neg (by rw [h.len]; omega)]
    congr 1
    refine if_congr ?_ rfl rfl
    have e : ((List.range (min n s.bestHist.length)).filter fun i =>
        decide (FVal.eq (s.bestHist.getD (s.bestHist.length - 1 - i) Cand.blank).fvalue
          (s.kBestHist.getD (s.bestHist.length - 1 - i) Cand.blank).fvalue)).length = equalCount n s := by
      unfold equalCount
      rw [zip_lastN _ _ Cand.blank Cand.blank _ h.len, List.countP_reverse, List.countP_map,
        ← List.countP_eq_length_filter]
      congr 1
    rw [e]
    constructor
    · intro hc
      refine ⟨by omega, by omega, ?_⟩
      have hc' : ((min n s.bestHist.length : ℕ) : ℝ) / 3 < equalCount n s := hc
      linarith
    · rintro ⟨_, _, hc⟩
      show ((min n s.bestHist.length : ℕ) : ℝ) / 3 < equalCount n s
      linarith

theorem crit_maxFEvals {p : Params n} {s : Sol n} [Decidable (MaxFEvals p s)] :
    critMaxFEvals p s = .ok (if MaxFEvals p s then 8 else 0) := by
  unfold critMaxFEvals
  congr 1
  by_cases h : p.maxFevals = -1
  · rw [if_pos h, if_neg (fun h' => h'.1 h)]
  · rw [if_neg h]
    exact if_congr ⟨fun h' => ⟨h, h'⟩, fun h' => h'.2⟩ rfl rfl

theorem crit_maxIter {p : Params n} {s : Sol n} [Decidable (MaxIter p s)] :
    critMaxIter p s = .ok (if MaxIter p s then 9 else 0) := by
  unfold critMaxIter
  congr 1
  by_cases h : p.maxIter = -1
  · rw [if_pos h, if_neg (fun h' => h'.1 h)]
  · rw [if_neg h]
    exact if_congr ⟨fun h' => ⟨h, h'⟩, fun h' => h'.2⟩ rfl rfl

theorem autoMaxIterThresh_eq (p : Params n) : autoMaxIterThresh p = autoLimit p := by
  unfold autoMaxIterThresh autoLimit
  simp only
  by_cases h : p.vd = true ∧ n < 10
  · rw [if_pos h, if_pos h]
  · rw [if_neg h, if_neg h, mul_one]

theorem crit_autoMaxIter {p : Params n} {s : Sol n} (h : 0 < p.lambda) [Decidable (AutoMaxIter p s)] :
    critAutoMaxIter p s = .ok (if AutoMaxIter p s then 7 else 0) := by
  unfold critAutoMaxIter
  rw [if_neg h.ne', autoMaxIterThresh_eq]
  congr 1
  exact if_congr Iff.rfl rfl rfl

theorem crit_fTarget {p : Params n} {s : Sol n} [Decidable (FTarget p s)] :
    critFTarget p s = .ok (if FTarget p s then 10 else 0) := by
  unfold critFTarget
  congr 1
  by_cases h : p.ftarget = .num ⊤
  · rw [if_pos h, if_neg (fun h' => h'.1 h)]
  · rw [if_neg h]
    exact if_congr ⟨fun h' => ⟨h, h'⟩, fun h' => h'.2⟩ rfl rfl

theorem sqrtF_nonneg {a : ℝ} (h : 0 ≤ a) : sqrtF a = .num (Real.sqrt a : EReal) := by
  unfold sqrtF
  rw [if_neg (not_lt.2 h)]; rfl

theorem le_num {a b : ℝ} : FVal.le (FVal.ofReal a) (.num (b : EReal)) ↔ a ≤ b := by
  simp [FVal.le, FVal.ofReal]

theorem crit_tolX {p : Params n} {s : Sol n} (h : StopReady p s) [Decidable (TolXCoded p s)] :
    critTolX p s = .ok (if TolXCoded p s then 2 else 0) := by
  unfold critTolX
  rw [if_neg h.sigmaInit.ne', if_neg (by simp [h.paths])]
  simp only
  by_cases h1 : ∃ i, s.pc i ≥ max p.xtol 1e-12 * (s.sigma / p.sigmaInit)
  · rw [if_pos h1, if_neg]
    intro hc
    obtain ⟨i, hi⟩ := h1
    exact absurd (hc i).1 (not_lt.2 hi)
  rw [if_neg h1]
  push Not at h1
  by_cases hf : p.sep = false ∧ p.vd = false
  · rw [if_pos (by simp [hf.1, hf.2]), if_neg (by simp [h.full hf])]
    have hv : ∀ i, varOf p s i = s.cov i i := fun i => if_pos hf
    by_cases h2 : TolXCoded p s
    · rw [if_pos h2, if_neg]
      rintro ⟨i, hi⟩
      have hp := h.var i
      rw [hv] at hp
      rw [sqrtF_nonneg hp, le_num] at hi
      have := (h2 i).2
      rw [hv] at this
      exact absurd hi (not_le.2 this)
    · rw [if_neg h2, if_pos]
      unfold TolXCoded at h2
      push Not at h2
      obtain ⟨i, hi⟩ := h2
      refine ⟨i, ?_⟩
      have hp := h.var i
      rw [hv] at hp
      rw [sqrtF_nonneg hp, le_num]
      have := hi (h1 i)
      rwa [hv] at this
  · rw [if_neg (by
      intro h
      simp only [Bool.and_eq_true, Bool.not_eq_true'] at h
      exact hf h), if_neg (by simp [h.diag hf])]
    have hv : ∀ i, varOf p s i = s.sepcov i := fun i => if_neg hf
    by_cases h2 : TolXCoded p s
    · rw [if_pos h2, if_neg]
      rintro ⟨i, hi⟩
      have hp := h.var i
      rw [hv] at hp
      rw [sqrtF_nonneg hp, le_num] at hi
      have := (h2 i).2
      rw [hv] at this
      exact absurd hi (not_le.2 this)
    · rw [if_neg h2, if_pos]
      unfold TolXCoded at h2
      push Not at h2
      obtain ⟨i, hi⟩ := h2
      refine ⟨i, ?_⟩
      have hp := h.var i
      rw [hv] at hp
      rw [sqrtF_nonneg hp, le_num]
      have := hi (h1 i)
      rwa [hv] at this

theorem crit_tolUpSigma {p : Params n} {s : Sol n} (h : StopReady p s) [Decidable (TolUpSigma p s)] :
    critTolUpSigma p s = .ok (if TolUpSigma p s then -13 else 0) := by
  unfold critTolUpSigma
  rw [if_neg h.sigmaInit.ne', if_neg (not_lt.2 h.maxEig)]
  congr 1
  exact if_congr Iff.rfl rfl rfl

theorem crit_conditionCov {p : Params n} {s : Sol n} (h : StopReady p s) [Decidable (ConditionCov s)] :
    critConditionCov p s = .ok (if ConditionCov s then -15 else 0) := by
  unfold critConditionCov
  rw [if_neg h.minEig.ne']
  congr 1
  refine if_congr ?_ rfl rfl
  rw [gt_iff_lt, lt_div_iff₀ h.minEig]
  exact Iff.rfl

theorem crit_noEffectAxis {fladd : ℝ → ℝ → ℝ} {p : Params n} {s : Sol n} (h : StopReady p s)
    [Decidable (NoEffectAxisCoded fladd p s)] :
    critNoEffectAxis fladd p s = .ok (if NoEffectAxisCoded fladd p s then 3 else 0) := by
  unfold critNoEffectAxis
  rw [if_neg (by simp [h.leig])]
  simp only
  congr 1
  by_cases hf : p.sep = false ∧ p.vd = false
  · rw [if_pos (by simp [hf.1, hf.2])]
    have hN : NoEffectAxisCoded fladd p s ↔ ∀ i j, s.xmean i = fladd (s.xmean i)
        (0.1 * s.sigma * Real.sqrt (s.leigenvalues i) * s.leigenvectors i j) := by
      unfold NoEffectAxisCoded; rw [if_pos hf]
    by_cases hc : NoEffectAxisCoded fladd p s
    · rw [if_pos hc, if_neg]
      rintro ⟨i, j, h1 | h1⟩
      · exact absurd (h.eig i) (not_le.2 h1)
      · exact h1 (hN.1 hc i j)
    · rw [if_neg hc, if_pos]
      rw [hN] at hc
      push Not at hc
      obtain ⟨i, j, h1⟩ := hc
      exact ⟨i, j, Or.inr h1⟩
  · rw [if_neg (by
      intro h
      simp only [Bool.and_eq_true, Bool.not_eq_true'] at h
      exact hf h)]
    have hN : NoEffectAxisCoded fladd p s ↔
        ∀ i, s.xmean i = fladd (s.xmean i) (0.1 * s.sigma * Real.sqrt (s.leigenvalues i)) := by
      unfold NoEffectAxisCoded; rw [if_neg hf]
    by_cases hc : NoEffectAxisCoded fladd p s
    · rw [if_pos hc, if_neg]
      rintro ⟨i, h1 | h1⟩
      · exact absurd (h.eig i) (not_le.2 h1)
      · exact h1 (hN.1 hc i)
    · rw [if_neg hc, if_pos]
      rw [hN] at hc
      push Not at hc
      obtain ⟨i, h1⟩ := hc
      exact ⟨i, Or.inr h1⟩

theorem crit_noEffectCoor {fladd : ℝ → ℝ → ℝ} {p : Params n} {s : Sol n} (h : StopReady p s)
    [Decidable (NoEffectCoor fladd p s)] :
    critNoEffectCoor fladd p s = .ok (if NoEffectCoor fladd p s then 4 else 0) := by
  unfold critNoEffectCoor
  by_cases hf : p.sep = false ∧ p.vd = false
  · have hv : ∀ i, varOf p s i = s.cov i i := fun i => if_pos hf
    rw [if_pos (by simp [hf.1, hf.2]), if_neg (by simp [h.full hf])]
    congr 1
    have hN : NoEffectCoor fladd p s ↔
        ∀ i, s.xmean i = fladd (s.xmean i) (0.2 * s.sigma * Real.sqrt (s.cov i i)) := by
      unfold NoEffectCoor; simp only [hv]
    by_cases hc : NoEffectCoor fladd p s
    · rw [if_pos hc, if_neg]
      rintro ⟨i, h1 | h1⟩
      · exact absurd (hv i ▸ h.var i) (not_le.2 h1)
      · exact h1 (hN.1 hc i)
    · rw [if_neg hc, if_pos]
      rw [hN] at hc
      push Not at hc
      obtain ⟨i, h1⟩ := hc
      exact ⟨i, Or.inr h1⟩
  · have hv : ∀ i, varOf p s i = s.sepcov i := fun i => if_neg hf
    rw [if_neg (by
      intro h
      simp only [Bool.and_eq_true, Bool.not_eq_true'] at h
      exact hf h), if_neg (by simp [h.diag hf])]
    congr 1
    have hN : NoEffectCoor fladd p s ↔
        ∀ i, s.xmean i = fladd (s.xmean i) (0.2 * s.sigma * Real.sqrt (s.sepcov i)) := by
      unfold NoEffectCoor; simp only [hv]
    by_cases hc : NoEffectCoor fladd p s
    · rw [if_pos hc, if_neg]
      rintro ⟨i, h1 | h1⟩
      · exact absurd (hv i ▸ h.var i) (not_le.2 h1)
      · exact h1 (hN.1 hc i)
    · rw [if_neg hc, if_pos]
      rw [hN] at hc
      push Not at hc
      obtain ⟨i, h1⟩ := hc
      exact ⟨i, Or.inr h1⟩

open Classical in
/-- Each test computes its condition. -/
theorem critFun_fires {fladd : ℝ → ℝ → ℝ} {p : Params n} {s : Sol n} (h : StopReady p s) {c : ℤ}
    (hc : c ∈ stopCodes) : critFun fladd c p s = .ok (if Fires fladd c p s then c else 0) := by
  unfold stopCodes at hc
  simp only [List.mem_cons, List.not_mem_nil, or_false] at hc
  rcases hc with rfl | rfl | rfl | rfl | rfl | rfl | rfl | rfl | rfl | rfl | rfl | rfl
  · rw [show critFun fladd (-15) p s = critConditionCov p s from rfl, crit_conditionCov h]
    congr 1; refine if_congr ?_ rfl rfl; simp [Fires]
  · rw [show critFun fladd (-13) p s = critTolUpSigma p s from rfl, crit_tolUpSigma h]
    congr 1; refine if_congr ?_ rfl rfl; simp [Fires]
  · rw [show critFun fladd 1 p s = critTolHistFun p s from rfl, crit_tolHistFun h]
    congr 1; refine if_congr ?_ rfl rfl; simp [Fires]
  · rw [show critFun fladd 2 p s = critTolX p s from rfl, crit_tolX h]
    congr 1; refine if_congr ?_ rfl rfl; simp [Fires]
  · rw [show critFun fladd 3 p s = critNoEffectAxis fladd p s from rfl, crit_noEffectAxis h]
    congr 1; refine if_congr ?_ rfl rfl; simp [Fires]
  · rw [show critFun fladd 4 p s = critNoEffectCoor fladd p s from rfl, crit_noEffectCoor h]
    congr 1; refine if_congr ?_ rfl rfl; simp [Fires]
  · rw [show critFun fladd 5 p s = critEqualFunVals p s from rfl, crit_equalFunVals h]
    congr 1; refine if_congr ?_ rfl rfl; simp [Fires]
  · rw [show critFun fladd 6 p s = critStagnation p s from rfl, crit_stagnation h]
    congr 1; refine if_congr ?_ rfl rfl; simp [Fires]
  · rw [show critFun fladd 7 p s = critAutoMaxIter p s from rfl, crit_autoMaxIter h.lambda]
    congr 1; refine if_congr ?_ rfl rfl; simp [Fires]
  · rw [show critFun fladd 8 p s = critMaxFEvals p s from rfl, crit_maxFEvals]
    congr 1; refine if_congr ?_ rfl rfl; simp [Fires]
  · rw [show critFun fladd 9 p s = critMaxIter p s from rfl, crit_maxIter]
    congr 1; refine if_congr ?_ rfl rfl; simp [Fires]
  · rw [show critFun fladd 10 p s = critFTarget p s from rfl, crit_fTarget]
    congr 1; refine if_congr ?_ rfl rfl; simp [Fires]

end Libcmaes
