import Verif.Model.ErrStats
import Verif.Lemmas.Out
import Verif.Lemmas.EoMatrix
import Verif.Lemmas.Witness

/-!
# Lemmas for the profile likelihood
-/

namespace Libcmaes

theorem FVal.lt_trans' {a b c : FVal} (h : FVal.lt a b) (h' : FVal.lt b c) : FVal.lt a c := by
  cases a <;> cases b <;> cases c <;> simp only [FVal.lt] at *
  exact _root_.lt_trans h h'

theorem FVal.lt_ofReal {a b : ℝ} : FVal.lt (FVal.ofReal a) (FVal.ofReal b) ↔ a < b := EReal.coe_lt_coe_iff

theorem FVal.le_ofReal {a b : ℝ} : FVal.le (FVal.ofReal a) (FVal.ofReal b) ↔ a ≤ b := EReal.coe_le_coe_iff

theorem FVal.add_ofReal (a b : ℝ) : FVal.add (FVal.ofReal a) (FVal.ofReal b) = FVal.ofReal (a + b) := by
  unfold FVal.add FVal.ofReal
  simp

theorem FVal.sub_ofReal (a b : ℝ) : FVal.sub (FVal.ofReal a) (FVal.ofReal b) = FVal.ofReal (a - b) := by
  have : FVal.neg (FVal.ofReal b) = FVal.ofReal (-b) := by simp [FVal.neg, FVal.ofReal]
  unfold FVal.sub
  rw [this, FVal.add_ofReal, sub_eq_add_neg]

theorem FVal.abs_ofReal (a : ℝ) : (FVal.ofReal a).abs = FVal.ofReal |a| := by
  unfold FVal.abs FVal.ofReal
  simp only
  have hm : Monotone ((↑) : ℝ → EReal) := fun x y h => EReal.coe_le_coe_iff.2 h
  rw [abs_eq_max_neg, ← EReal.coe_neg, hm.map_max]

theorem FVal.tenth_ofReal (a : ℝ) : (FVal.ofReal a).tenth = FVal.ofReal (a * 0.1) := by
  unfold FVal.tenth FVal.ofReal
  simp only
  rw [← EReal.coe_mul]

theorem coord_eq_ok {n : ℕ} {x : Vec n} {k : ℕ} {a : ℝ} : coord x k = .ok a ↔ ∃ h : k < n, x ⟨k, h⟩ = a := by
  unfold coord
  by_cases h : k < n
  · rw [dif_pos h]
    exact ⟨fun e => ⟨h, Except.ok.inj e⟩, fun ⟨_, e⟩ => congrArg _ e⟩
  · rw [dif_neg h]
    exact ⟨fun e => (nomatch e), fun ⟨h', _⟩ => absurd h' h⟩

namespace Pli

variable {n : ℕ}

/-- The scan returns an index whose value no other one undercuts. -/
theorem scan_spec (all : List FVal) (l : List FVal) (best : FVal) (bi i : ℕ) (hi : all.drop i = l)
    (hb : all[bi]? = some best) (hbi : bi < i) (hm : ∀ j < i, ∀ v, all[j]? = some v → ¬ FVal.lt v best) :
    ∃ v, all[scan best bi l i]? = some v ∧ ∀ (j : ℕ) (w : FVal), all[j]? = some w → ¬ FVal.lt w v := by
  induction l generalizing best bi i with
  | nil =>
    refine ⟨best, hb, ?_⟩
    intro j w hw
    have hl : all.length ≤ i := by
      have := congrArg List.length hi
      simp only [List.length_drop, List.length_nil] at this
      omega
    have := (List.getElem?_eq_some_iff.1 hw).1
    exact hm j (by omega) w hw
  | cons a l ih =>
    have ha : all[i]? = some a := by
      have : (all.drop i)[0]? = some a := by rw [hi]; rfl
      simpa using this
    have hd : all.drop (i + 1) = l := by
      rw [← List.drop_drop, hi]; rfl
    unfold scan
    split_ifs with h
    · refine ih a i (i + 1) hd ha (by omega) ?_
      intro j hj v hv hlt
      rcases Nat.lt_succ_iff_lt_or_eq.1 hj with hj' | rfl
      · exact hm j hj' v hv (FVal.lt_trans' hlt h)
      · rw [ha] at hv
        obtain rfl := Option.some.inj hv
        cases a
        · exact hlt
        · exact lt_irrefl _ hlt
    · refine ih best bi (i + 1) hd hb (by omega) ?_
      intro j hj v hv
      rcases Nat.lt_succ_iff_lt_or_eq.1 hj with hj' | rfl
      · exact hm j hj' v hv
      · rw [ha] at hv
        obtain rfl := Option.some.inj hv
        exact h

theorem argmin_spec {l : List FVal} {i : ℕ} (h : argmin l = .ok i) :
    ∃ v, l[i]? = some v ∧ ∀ (j : ℕ) (w : FVal), l[j]? = some w → ¬ FVal.lt w v := by
  cases l with
  | nil => exact nomatch h
  | cons a l =>
    obtain rfl := Except.ok.inj h
    refine scan_spec (a :: l) l a 0 1 rfl rfl (by omega) ?_
    intro j hj v hv hlt
    obtain rfl : j = 0 := by omega
    obtain rfl := Option.some.inj hv
    cases a
    · exact hlt
    · exact lt_irrefl _ hlt

theorem argmin_ok {l : List FVal} (h : 0 < l.length) : ∃ i, argmin l = .ok i := by
  cases l with
  | nil => simp at h
  | cons a l => exact ⟨_, rfl⟩

/-- The vectors have the sizes the constructor gives them. -/
structure Shaped (p : Pli n) : Prop where
  fv : p.fvaluem.length = 2 * p.samplesize + 1
  xm : p.xm.length = 2 * p.samplesize + 1
  err : p.err.length = 2 * p.samplesize + 1

theorem make_shaped (k s : ℕ) (x : Vec n) (v : FVal) (fup delta : ℝ) : (make k s x v fup delta).Shaped :=
  ⟨by simp [make], by simp [make], by simp [make]⟩

/-- Same parameter, same sizes, same optimum. -/
structure Like (q p : Pli n) : Prop where
  k : q.k = p.k
  s : q.samplesize = p.samplesize
  fup : q.fup = p.fup
  fv : q.fvaluem.length = p.fvaluem.length
  xm : q.xm.length = p.xm.length
  err : q.err.length = p.err.length
  cf : q.fvaluem[p.samplesize]? = p.fvaluem[p.samplesize]?
  cx : q.xm[p.samplesize]? = p.xm[p.samplesize]?

theorem Like.refl (p : Pli n) : Like p p := ⟨rfl, rfl, rfl, rfl, rfl, rfl, rfl, rfl⟩

theorem Like.trans {p q r : Pli n} (h : Like q p) (h' : Like r q) : Like r p :=
  ⟨h'.k.trans h.k, h'.s.trans h.s, h'.fup.trans h.fup, h'.fv.trans h.fv, h'.xm.trans h.xm, h'.err.trans h.err,
    by rw [← h.cf, ← h.s, h'.cf], by rw [← h.cx, ← h.s, h'.cx]⟩

theorem Like.shaped {p q : Pli n} (h : Like q p) (hp : p.Shaped) : q.Shaped :=
  ⟨by rw [h.fv, hp.fv, h.s], by rw [h.xm, hp.xm, h.s], by rw [h.err, hp.err, h.s]⟩

/-- Where `put` writes. -/
def slot (s : ℕ) (neg : Bool) (j : ℕ) : ℕ := if neg then s - (1 + j) else s + (1 + j)

theorem put_eq {p q : Pli n} {neg : Bool} {j : ℕ} {v : FVal} {x : Vec n} {st : ℤ} (h : p.put neg j v x st = .ok q) :
    (neg = true → j < p.samplesize) ∧ q = { p with
      fvaluem := p.fvaluem.set (slot p.samplesize neg j) v
      xm := p.xm.set (slot p.samplesize neg j) x
      err := p.err.set (slot p.samplesize neg j) st } := by
  unfold put at h
  by_cases h1 : neg = true ∧ p.samplesize ≤ j
  · rw [if_pos h1] at h
    exact nomatch h
  · rw [if_neg h1] at h
    by_cases h2 : p.fvaluem.length ≤ slot p.samplesize neg j ∨ p.xm.length ≤ slot p.samplesize neg j ∨
        p.err.length ≤ slot p.samplesize neg j
    · erw [if_pos h2] at h
      exact nomatch h
    · erw [if_neg h2] at h
      refine ⟨fun hn => ?_, (Except.ok.inj h).symm⟩
      by_contra hc
      exact h1 ⟨hn, by omega⟩

theorem put_ok {p : Pli n} (hp : p.Shaped) (neg : Bool) {j : ℕ} (hj : j < p.samplesize) (v : FVal) (x : Vec n)
    (st : ℤ) : ∃ q, p.put neg j v x st = .ok q := by
  unfold put
  rw [if_neg (by omega)]
  have h1 := hp.fv
  have h2 := hp.xm
  have h3 := hp.err
  have hi : (if neg = true then p.samplesize - (1 + j) else p.samplesize + (1 + j)) < 2 * p.samplesize + 1 := by
    split_ifs <;> omega
  simp only
  rw [if_neg (by omega)]
  exact ⟨_, rfl⟩

theorem slot_ne {s : ℕ} {neg : Bool} {j : ℕ} (h : neg = true → j < s) : slot s neg j ≠ s := by
  unfold slot
  cases neg
  · simp
  · have := h rfl
    simp only [if_true]
    omega

theorem put_like {p q : Pli n} {neg : Bool} {j : ℕ} {v : FVal} {x : Vec n} {st : ℤ}
    (h : p.put neg j v x st = .ok q) : Like q p := by
  obtain ⟨h1, rfl⟩ := put_eq h
  have := slot_ne h1
  refine ⟨rfl, rfl, rfl, by simp, by simp, by simp, ?_, ?_⟩
  · simp only
    rw [List.getElem?_set_ne this]
  · simp only
    rw [List.getElem?_set_ne this]

/-- The `m` positions on one side of the optimum that are nearest to it. -/
def OnSide (s : ℕ) (neg : Bool) (m i : ℕ) : Prop := if neg then s - m ≤ i ∧ i < s else s < i ∧ i ≤ s + m

instance (s : ℕ) (neg : Bool) (m i : ℕ) : Decidable (OnSide s neg m i) := by unfold OnSide; infer_instance

theorem padUpTo_spec {p : Pli n} (hp : p.Shaped) (neg : Bool) (v : FVal) (x : Vec n) (st : ℤ) (m : ℕ)
    (hm : m ≤ p.samplesize) :
    ∃ q, (List.range m).foldlM (fun p j => p.put neg j v x st) p = Except.ok q ∧ Like q p ∧
      ∀ i, q.fvaluem[i]? = (if OnSide p.samplesize neg m i then some v else p.fvaluem[i]?) ∧
        q.xm[i]? = (if OnSide p.samplesize neg m i then some x else p.xm[i]?) := by
  induction m with
  | zero =>
    refine ⟨p, rfl, Like.refl p, ?_⟩
    intro i
    have : ¬ OnSide p.samplesize neg 0 i := by unfold OnSide; split_ifs <;> omega
    rw [if_neg this, if_neg this]
    exact ⟨rfl, rfl⟩
  | succ m ih =>
    obtain ⟨q, h1, h2, h3⟩ := ih (by omega)
    obtain ⟨r, hr⟩ := put_ok (h2.shaped hp) neg (j := m) (by rw [h2.s]; omega) v x st
    refine ⟨r, ?_, h2.trans (put_like hr), ?_⟩
    · rw [List.range_succ, List.foldlM_append, h1]
      show (q.put neg m v x st >>= fun r => (pure r : Out (Pli n))) = _
      rw [hr]
      rfl
    · obtain ⟨hlt, rfl⟩ := put_eq hr
      intro i
      have e1 := (h2.shaped hp).fv
      have e2 := (h2.shaped hp).xm
      obtain ⟨h4, h5⟩ := h3 i
      simp only
      rw [List.getElem?_set, List.getElem?_set, h4, h5, h2.s]
      have hs : slot p.samplesize neg m < 2 * p.samplesize + 1 := by unfold slot; split_ifs <;> omega
      rw [h2.s] at e1 e2
      by_cases hi : slot p.samplesize neg m = i
      · have hon : OnSide p.samplesize neg (m + 1) i := by
          subst hi; unfold OnSide slot; split_ifs <;> omega
        simp only [if_pos hi, if_pos hon, e1, e2, if_pos hs, and_self]
      · have hon : OnSide p.samplesize neg (m + 1) i ↔ OnSide p.samplesize neg m i := by
          unfold slot at hi
          unfold OnSide
          cases neg
          · simp only [Bool.false_eq_true, if_false] at hi ⊢
            omega
          · simp only [if_true] at hi ⊢
            omega
        rw [if_neg hi, if_neg hi]
        simp only [hon]
        exact ⟨trivial, trivial⟩

theorem pad_spec {p : Pli n} (hp : p.Shaped) (neg : Bool) (v : FVal) (x : Vec n) (st : ℤ) :
    ∃ q, p.pad neg v x st = .ok q ∧ Like q p ∧
      ∀ i, q.fvaluem[i]? = (if OnSide p.samplesize neg p.samplesize i then some v else p.fvaluem[i]?) ∧
        q.xm[i]? = (if OnSide p.samplesize neg p.samplesize i then some x else p.xm[i]?) :=
  padUpTo_spec hp neg v x st p.samplesize le_rfl

/-- What `setErrMinMax` computes on vectors of the right sizes. -/
theorem setErrMinMax_spec {p q : Pli n} (hp : p.Shaped) (h : p.setErrMinMax = .ok q) :
    ∃ (hk : p.k < n) (i j : ℕ) (v vi vj : FVal) (x xi xj : Vec n), i < p.samplesize ∧ j < p.samplesize ∧
      q = { p with min := Min.min (xi ⟨p.k, hk⟩) (xj ⟨p.k, hk⟩), max := Max.max (xi ⟨p.k, hk⟩) (xj ⟨p.k, hk⟩),
                   minindex := i, maxindex := j,
                   errmin := Min.min (xi ⟨p.k, hk⟩) (xj ⟨p.k, hk⟩) - x ⟨p.k, hk⟩,
                   errmax := Max.max (xi ⟨p.k, hk⟩) (xj ⟨p.k, hk⟩) - x ⟨p.k, hk⟩ } ∧
      p.fvaluem[p.samplesize]? = some v ∧ p.xm[p.samplesize]? = some x ∧
      p.fvaluem[i]? = some vi ∧ p.xm[i]? = some xi ∧
      p.fvaluem[p.samplesize + 1 + j]? = some vj ∧ p.xm[p.samplesize + 1 + j]? = some xj ∧
      (∀ i' < p.samplesize, ∀ w, p.fvaluem[i']? = some w →
        ¬ FVal.lt (FVal.sub w (v.add (FVal.ofReal p.fup))).abs (FVal.sub vi (v.add (FVal.ofReal p.fup))).abs) ∧
      (∀ j' < p.samplesize, ∀ w, p.fvaluem[p.samplesize + 1 + j']? = some w →
        ¬ FVal.lt (FVal.sub w (v.add (FVal.ofReal p.fup))).abs (FVal.sub vj (v.add (FVal.ofReal p.fup))).abs) := by
  unfold setErrMinMax setMinMax getMinMax at h
  simp only [Out.bind_eq_ok] at h
  obtain ⟨p1, ⟨v, hv, r, ⟨i, hi, j, hj, xi, hxi, a, ha, xj, hxj, b, hb, hr⟩, hp1⟩, x, hx, c, hc, hq⟩ := h
  rw [idx_eq_ok] at hv hxi hxj hx
  obtain rfl := Except.ok.inj hr
  obtain rfl := Except.ok.inj hp1
  obtain rfl := Except.ok.inj hq
  rw [coord_eq_ok] at ha hb hc
  obtain ⟨hk, rfl⟩ := ha
  obtain ⟨_, rfl⟩ := hb
  obtain ⟨_, rfl⟩ := hc
  obtain ⟨w1, hw1, hm1⟩ := argmin_spec hi
  obtain ⟨w2, hw2, hm2⟩ := argmin_spec hj
  have hl := hp.fv
  have hd : p.fvaluem.length - p.samplesize = p.samplesize + 1 := by omega
  rw [hd] at hw2 hm2
  simp only [List.getElem?_map, Option.map_eq_some_iff] at hw1 hw2 hm1 hm2
  obtain ⟨vi, hvi, rfl⟩ := hw1
  obtain ⟨vj, hvj, rfl⟩ := hw2
  have hi' : i < p.samplesize := by
    have := (List.getElem?_eq_some_iff.1 hvi).1
    simp only [List.length_take] at this
    omega
  have hj' : j < p.samplesize := by
    have := (List.getElem?_eq_some_iff.1 hvj).1
    simp only [List.length_drop] at this
    omega
  rw [List.getElem?_take_of_lt hi'] at hvi
  rw [List.getElem?_drop] at hvj
  refine ⟨hk, i, j, v, vi, vj, x, xi, xj, hi', hj', ?_, hv, hx, hvi, hxi, hvj, hxj, ?_, ?_⟩
  · simp only
    split_ifs with hgt
    · rw [min_eq_right (le_of_lt hgt), max_eq_left (le_of_lt hgt)]
    · rw [min_eq_left (not_lt.1 hgt), max_eq_right (not_lt.1 hgt)]
  · intro i' hlt w hw
    exact hm1 i' _ ⟨w, by rw [List.getElem?_take_of_lt hlt]; exact hw, rfl⟩
  · intro j' hlt w hw
    exact hm2 j' _ ⟨w, by rw [List.getElem?_drop]; exact hw, rfl⟩

/-- `setErrMinMax` succeeds for at least one sample. -/
theorem setErrMinMax_ok {p : Pli n} (hp : p.Shaped) (hk : p.k < n) (hs : 0 < p.samplesize) :
    ∃ q, p.setErrMinMax = .ok q := by
  have h1 := hp.fv
  have h2 := hp.xm
  have hx : ∀ i, i < 2 * p.samplesize + 1 → ∃ x, idx p.xm i = .ok x := fun i hi =>
    ⟨p.xm[i], idx_eq_ok.2 (List.getElem?_eq_getElem (by omega))⟩
  have hc : ∀ x : Vec n, coord x p.k = .ok (x ⟨p.k, hk⟩) := fun x => coord_eq_ok.2 ⟨hk, rfl⟩
  obtain ⟨v, hv⟩ : ∃ v, idx p.fvaluem p.samplesize = .ok v :=
    ⟨p.fvaluem[p.samplesize], idx_eq_ok.2 (List.getElem?_eq_getElem (by omega))⟩
  obtain ⟨i, hi⟩ := argmin_ok (l := (p.fvaluem.take p.samplesize).map
    fun w => (FVal.sub w (v.add (FVal.ofReal p.fup))).abs) (by simp; omega)
  obtain ⟨j, hj⟩ := argmin_ok (l := (p.fvaluem.drop (p.fvaluem.length - p.samplesize)).map
    fun w => (FVal.sub w (v.add (FVal.ofReal p.fup))).abs) (by simp; omega)
  have hi' : i < p.samplesize := by
    obtain ⟨w, hw, _⟩ := argmin_spec hi
    have := (List.getElem?_eq_some_iff.1 hw).1
    simp at this
    omega
  have hj' : j < p.samplesize := by
    obtain ⟨w, hw, _⟩ := argmin_spec hj
    have := (List.getElem?_eq_some_iff.1 hw).1
    simp at this
    omega
  obtain ⟨xi, hxi⟩ := hx i (by omega)
  obtain ⟨xj, hxj⟩ := hx (p.samplesize + 1 + j) (by omega)
  obtain ⟨x, hxx⟩ := hx p.samplesize (by omega)
  unfold setErrMinMax setMinMax getMinMax
  simp only [hv, hi, hj, hxi, hxj, hxx, hc, Out.ok_bind, Out.pure_eq]
  exact ⟨_, rfl⟩

end Pli

namespace ErrStats

variable {n : ℕ}

theorem toVec_eq_ok {l : List ℝ} {x : Vec n} (h : toVec n l = .ok x) : l = List.ofFn x := by
  unfold toVec at h
  split_ifs at h with hl
  obtain rfl := Except.ok.inj h
  subst hl
  exact (List.ofFn_getElem (xs := l)).symm

/-- One round of the search. -/
theorem searchLoop_succ {q : Profile n} {inner : Inner} {lfuel fuel i no : ℕ} {neg linit : Bool} {d : ℝ} {x : Vec n}
    {le : Pli n} {o : Option (Pli n × ℕ)} (h : searchLoop q inner lfuel neg (fuel + 1) i linit d x le no = .ok o) :
    (takeLinearStep q.toLine lfuel 10 linit d x = .ok none ∧ o = none) ∨
    ∃ d1 x1 ev r, takeLinearStep q.toLine lfuel 10 linit d x = .ok (some (d1, x1, ev)) ∧
      optimizeVpk q.f inner no q.gp q.sol.cands [(q.k.val, x1 q.k)] (List.ofFn x1) false false = .ok r ∧
      (((r.status < 0 ∨ FVal.lt r.best.1 q.minf.tenth) ∧ ∃ v c le1, le.fvaluem[le.samplesize]? = some v ∧
          le.xm[le.samplesize]? = some c ∧ le.pad neg v c r.status = .ok le1 ∧ o = some (le1, no + 1)) ∨
        (¬ (r.status < 0 ∨ FVal.lt r.best.1 q.minf.tenth) ∧ ∃ x2 bx le1, r.best.2 = List.ofFn x2 ∧
          phenoV q.gp x2 = .ok bx ∧
          (if q.curve then le.put neg i r.best.1 bx r.status else .ok le) = .ok le1 ∧
          ((q.curve = false ∧ FVal.le ((FVal.sub (FVal.sub r.best.1 q.minf) (FVal.ofReal q.fup)).abs)
              (FVal.ofReal (0.1 * q.fup)) ∧
            ∃ le2, le1.pad neg r.best.1 bx r.status = .ok le2 ∧ o = some (le2, no + 1)) ∨
          (¬ (q.curve = false ∧ FVal.le ((FVal.sub (FVal.sub r.best.1 q.minf) (FVal.ofReal q.fup)).abs)
              (FVal.ofReal (0.1 * q.fup))) ∧
            ((((q.curve = true ∧ i + 1 = q.samplesize) ∨ ((i : ℤ) + 1 = q.maxiters)) ∧ o = some (le1, no + 1)) ∨
            (¬ ((q.curve = true ∧ i + 1 = q.samplesize) ∨ ((i : ℤ) + 1 = q.maxiters)) ∧
              searchLoop q inner lfuel neg fuel (i + 1) false d1 x2 le1 (no + 1) = .ok o)))))) := by
  unfold searchLoop at h
  rw [Out.bind_eq_ok] at h
  obtain ⟨t, ht, h⟩ := h
  rcases t with _ | ⟨d1, x1, ev⟩
  · exact Or.inl ⟨ht, (Except.ok.inj h).symm⟩
  · refine Or.inr ⟨d1, x1, ev, ?_⟩
    simp only at h
    rw [Out.bind_eq_ok] at h
    obtain ⟨r, hr, h⟩ := h
    refine ⟨r, ht, hr, ?_⟩
    by_cases h1 : r.status < 0 ∨ FVal.lt r.best.1 q.minf.tenth
    · rw [if_pos h1] at h
      simp only [Out.bind_eq_ok] at h
      obtain ⟨v, hv, c, hc, le1, h2, h3⟩ := h
      exact Or.inl ⟨h1, v, c, le1, idx_eq_ok.1 hv, idx_eq_ok.1 hc, h2, (Except.ok.inj h3).symm⟩
    · rw [if_neg h1] at h
      rw [Out.bind_eq_ok] at h
      obtain ⟨x2, hx2, h⟩ := h
      rw [Out.bind_eq_ok] at h
      obtain ⟨bx, hbx, h⟩ := h
      rw [Out.bind_eq_ok] at h
      obtain ⟨le1, hle1, h⟩ := h
      refine Or.inr ⟨h1, x2, bx, le1, toVec_eq_ok hx2, hbx, hle1, ?_⟩
      by_cases h2 : q.curve = false ∧ FVal.le ((FVal.sub (FVal.sub r.best.1 q.minf) (FVal.ofReal q.fup)).abs)
          (FVal.ofReal (0.1 * q.fup))
      · rw [if_pos h2, Out.bind_eq_ok] at h
        obtain ⟨le2, h3, h4⟩ := h
        exact Or.inl ⟨h2.1, h2.2, le2, h3, (Except.ok.inj h4).symm⟩
      · rw [if_neg h2] at h
        refine Or.inr ⟨h2, ?_⟩
        by_cases h3 : (q.curve = true ∧ i + 1 = q.samplesize) ∨ ((i : ℤ) + 1 = q.maxiters)
        · rw [if_pos h3] at h
          exact Or.inl ⟨h3, (Except.ok.inj h).symm⟩
        · rw [if_neg h3] at h
          exact Or.inr ⟨h3, h⟩

theorem searchLoop_like {q : Profile n} {inner : Inner} {lfuel : ℕ} {neg : Bool} (fuel : ℕ) :
    ∀ {i no : ℕ} {linit : Bool} {d : ℝ} {x : Vec n} {le le' : Pli n} {no' : ℕ}, le.Shaped →
    searchLoop q inner lfuel neg fuel i linit d x le no = .ok (some (le', no')) → Pli.Like le' le := by
  induction fuel with
  | zero => intro i no linit d x le le' no' _ h; exact nomatch Except.ok.inj h
  | succ fuel ih =>
    intro i no linit d x le le' no' hs h
    rcases searchLoop_succ h with ⟨_, h⟩ | ⟨d1, x1, ev, r, _, _, h⟩
    · exact nomatch h
    · have padl : ∀ {p p' : Pli n} {v : FVal} {c : Vec n} {st : ℤ}, p.Shaped → p.pad neg v c st = .ok p' →
          Pli.Like p' p := by
        intro p p' v c st hp e
        obtain ⟨p2, e2, hl, _⟩ := Pli.pad_spec hp neg v c st
        rw [e2] at e
        exact Except.ok.inj e ▸ hl
      rcases h with ⟨_, v, c, le1, _, _, h1, h2⟩ | ⟨_, x2, bx, le1, _, _, h1, h2⟩
      · obtain ⟨rfl, _⟩ := Prod.mk.inj (Option.some.inj h2)
        exact padl hs h1
      · have l1 : Pli.Like le1 le := by
          split_ifs at h1 with hc
          · exact Pli.put_like h1
          · exact Except.ok.inj h1 ▸ Pli.Like.refl _
        rcases h2 with ⟨_, _, le2, h3, h4⟩ | ⟨_, ⟨_, h4⟩ | ⟨_, h4⟩⟩
        · obtain ⟨rfl, _⟩ := Prod.mk.inj (Option.some.inj h4)
          exact l1.trans (padl (l1.shaped hs) h3)
        · obtain ⟨rfl, _⟩ := Prod.mk.inj (Option.some.inj h4)
          exact l1
        · exact l1.trans (ih (l1.shaped hs) h4)

/-- The parts of a profile that ended. -/
theorem profileLikelihood_eq {f : List ℝ → FVal} {inner : Inner} {fuel : ℕ} {p : Params n} {sol : Sol n} {pls pls' : Pls n}
    {k : Fin n} {curve : Bool} {s : ℕ} {fup delta : ℝ} {maxiters : ℤ} {le : Pli n}
    (h : profileLikelihood f inner fuel p sol pls k curve s fup delta maxiters = .ok (some (le, pls'))) :
    ∃ y le1 le2 no1 no2, phenoV p.gp sol.bestCandidate.x = .ok y ∧
      search (profileOf f p sol k curve s fup delta maxiters) inner fuel false
        (Pli.make k s y sol.bestCandidate.fvalue fup delta) 0 = .ok (some (le1, no1)) ∧
      search (profileOf f p sol k curve s fup delta maxiters) inner fuel true le1 no1 = .ok (some (le2, no2)) ∧
      le2.setErrMinMax = .ok le ∧ pls' = insertPli pls k le := by
  unfold profileLikelihood at h
  simp only [Out.bind_eq_ok] at h
  obtain ⟨y, hy, t, ht, h⟩ := h
  rcases t with _ | ⟨le1, no1⟩
  · exact nomatch Except.ok.inj h
  simp only [Out.bind_eq_ok] at h
  obtain ⟨t2, ht2, h⟩ := h
  rcases t2 with _ | ⟨le2, no2⟩
  · exact nomatch Except.ok.inj h
  simp only [Out.bind_eq_ok] at h
  obtain ⟨le3, h3, h⟩ := h
  obtain ⟨rfl, rfl⟩ := Prod.mk.inj (Option.some.inj (Except.ok.inj h))
  exact ⟨y, le1, le2, no1, no2, hy, ht, ht2, h3, rfl⟩

/-! ## Line searches -/

/-- One round of a line search. -/
theorem loop_eq (l : Line n) (above linit : Bool) (x : Vec n) (fuel i : ℕ) (d : ℝ) (xt y : Vec n) (fdiff : FVal) (ev : ℕ) :
    l.loop above linit x fuel i d xt y fdiff ev = (do
      if ← l.goesOn above fdiff i y then
        match fuel with
        | 0 => pure none
        | fuel + 1 => do
          let d' := if above then d / 2 else d * 2
          let dv ← rotated l.sol l.diag l.k d'
          let xt' := x + dv
          let y' ← phenoV l.gp xt'
          let fdiff' := (FVal.sub (l.f (List.ofFn y')) l.minf).abs
          l.loop above linit x fuel (if linit then i else i - 1) d' xt' y' fdiff' (ev + 1)
      else pure (some (d, xt, ev))) := by
  conv_lhs => unfold Line.loop
  rfl

theorem loop_cases {l : Line n} {above linit : Bool} {x : Vec n} {fuel i : ℕ} {d : ℝ} {xt y : Vec n} {fdiff : FVal} {ev : ℕ}
    {o : Option (ℝ × Vec n × ℕ)} (h : l.loop above linit x fuel i d xt y fdiff ev = .ok o) :
    (l.goesOn above fdiff i y = .ok false ∧ o = some (d, xt, ev)) ∨
    (l.goesOn above fdiff i y = .ok true ∧ ((fuel = 0 ∧ o = none) ∨
      ∃ fuel' dv y', fuel = fuel' + 1 ∧ rotated l.sol l.diag l.k (if above then d / 2 else d * 2) = .ok dv ∧
        phenoV l.gp (x + dv) = .ok y' ∧
        l.loop above linit x fuel' (if linit then i else i - 1) (if above then d / 2 else d * 2) (x + dv) y'
          (FVal.sub (l.f (List.ofFn y')) l.minf).abs (ev + 1) = .ok o)) := by
  rw [loop_eq, Out.bind_eq_ok] at h
  obtain ⟨b, hb, h⟩ := h
  cases b
  · exact Or.inl ⟨hb, (Except.ok.inj h).symm⟩
  · refine Or.inr ⟨hb, ?_⟩
    rw [if_pos rfl] at h
    cases fuel with
    | zero => exact Or.inl ⟨rfl, (Except.ok.inj h).symm⟩
    | succ fuel =>
      right
      simp only [Out.bind_eq_ok] at h
      obtain ⟨dv, h1, y', h2, h3⟩ := h
      exact ⟨fuel, dv, y', rfl, h1, h2, h3⟩

theorem goesOn_true {l : Line n} {above : Bool} {fdiff : FVal} {i : ℕ} {y : Vec n}
    (h : l.goesOn above fdiff i y = .ok true) : 0 < i ∧ ∃ lo hi, l.gp.phenoLBound l.k = .ok lo ∧
      l.gp.phenoUBound l.k = .ok hi ∧ lo ≤ y l.k ∧ y l.k ≤ hi := by
  unfold Line.goesOn at h
  simp only [Out.bind_eq_ok] at h
  obtain ⟨lo, h1, hi, h2, h3⟩ := h
  have := of_decide_eq_true (Except.ok.inj h3)
  exact ⟨this.2.1, lo, hi, h1, h2, this.2.2.1, this.2.2.2⟩

theorem goesOn_below {l : Line n} {fdiff : FVal} {i : ℕ} {y : Vec n} (h : l.goesOn false fdiff i y = .ok true) :
    FVal.lt fdiff (FVal.ofReal (l.fup - l.delta * l.fup)) := by
  unfold Line.goesOn at h
  simp only [Out.bind_eq_ok] at h
  obtain ⟨lo, _, hi, _, h3⟩ := h
  exact (of_decide_eq_true (Except.ok.inj h3)).1

/-- With a bounded number of steps the loop ends. -/
theorem loop_later {l : Line n} {above : Bool} {x : Vec n} (fuel : ℕ) : ∀ {i : ℕ} {d : ℝ} {xt y : Vec n} {fdiff : FVal}
    {ev : ℕ} {o : Option (ℝ × Vec n × ℕ)}, i ≤ fuel → l.loop above false x fuel i d xt y fdiff ev = .ok o →
    ∃ r, o = some r ∧ r.2.2 ≤ ev + i := by
  induction fuel with
  | zero =>
    intro i d xt y fdiff ev o hi h
    rcases loop_cases h with ⟨_, rfl⟩ | ⟨hg, _⟩
    · exact ⟨_, rfl, by simp⟩
    · have := (goesOn_true hg).1
      omega
  | succ fuel ih =>
    intro i d xt y fdiff ev o hi h
    rcases loop_cases h with ⟨_, rfl⟩ | ⟨hg, h | ⟨f', dv, y', hf, _, _, h2⟩⟩
    · exact ⟨_, rfl, by simp⟩
    · omega
    · obtain rfl : f' = fuel := by omega
      have := (goesOn_true hg).1
      obtain ⟨r, h1, h2⟩ := ih (by simp; omega) h2
      refine ⟨r, h1, ?_⟩
      simp only [Bool.false_eq_true, if_false] at h2
      omega

theorem takeLinearStep_eq {l : Line n} {fuel nmax : ℕ} {linit : Bool} {d : ℝ} {x : Vec n} {o : Option (ℝ × Vec n × ℕ)}
    (h : takeLinearStep l fuel nmax linit d x = .ok o) :
    ∃ y fdiff x1 r, phenoV l.gp x = .ok y ∧ fdiff = (FVal.sub (l.f (List.ofFn y)) l.minf).abs ∧
      ((FVal.lt (FVal.ofReal (l.fup + l.delta * l.fup)) fdiff ∧ (∃ dv, rotated l.sol l.diag l.k d = .ok dv ∧ x1 = x - dv) ∧
          l.loop true linit x1 fuel nmax d x y fdiff 1 = .ok r) ∨
        (¬ FVal.lt (FVal.ofReal (l.fup + l.delta * l.fup)) fdiff ∧ x1 = x ∧
          l.loop false linit x1 fuel nmax d x y fdiff 1 = .ok r)) ∧
      o = r.map fun q => (q.1, Function.update x1 l.k (q.2.1 l.k), q.2.2) := by
  unfold takeLinearStep at h
  simp only [Out.bind_eq_ok] at h
  obtain ⟨y, hy, x1, hx1, r, hr, ho⟩ := h
  refine ⟨y, _, x1, r, hy, rfl, ?_, (Except.ok.inj ho).symm⟩
  by_cases hab : FVal.lt (FVal.ofReal (l.fup + l.delta * l.fup)) (FVal.sub (l.f (List.ofFn y)) l.minf).abs
  · left
    rw [decide_eq_true hab] at hr hx1
    rw [if_pos rfl, Out.bind_eq_ok] at hx1
    obtain ⟨dv, h1, h2⟩ := hx1
    exact ⟨hab, ⟨dv, h1, (Except.ok.inj h2).symm⟩, hr⟩
  · right
    rw [decide_eq_false hab] at hr hx1
    exact ⟨hab, (Except.ok.inj hx1).symm, hr⟩

end ErrStats

end Libcmaes
