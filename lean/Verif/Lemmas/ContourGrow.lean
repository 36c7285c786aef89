import Verif.Lemmas.Contour

/-!
# Lemmas for contours: the growing polygon
-/

namespace Libcmaes

namespace ErrStats

variable {n : ℕ}

theorem farLoop_spec (sx sy : ℝ) : ∀ (pts : List (ℝ × ℝ)) (i : ℕ) (q : ℝ × ℕ × ℕ),
    q.1 ≤ (farLoop sx sy pts i q).1 ∧
    (∀ l a b r, pts = l ++ a :: b :: r → sqDist sx sy a b ≤ (farLoop sx sy pts i q).1) ∧
    (farLoop sx sy pts i q = q ∨ ∃ l a b r, pts = l ++ a :: b :: r ∧
      farLoop sx sy pts i q = (sqDist sx sy a b, i + l.length, i + l.length + 1))
  | [], i, q => by
    refine ⟨le_refl _, ?_, Or.inl rfl⟩
    intro l a b r h
    simp at h
  | [a], i, q => by
    refine ⟨le_refl _, ?_, Or.inl rfl⟩
    intro l a b r h
    have := congrArg List.length h
    simp at this
    omega
  | a :: b :: pts, i, q => by
    obtain ⟨h1, h2, h3⟩ := farLoop_spec sx sy (b :: pts) (i + 1)
      (if q.1 < sqDist sx sy a b then (sqDist sx sy a b, i, i + 1) else q)
    unfold farLoop
    have hq : q.1 ≤ (if q.1 < sqDist sx sy a b then (sqDist sx sy a b, i, i + 1) else q).1 := by
      split_ifs with h
      · exact h.le
      · exact le_refl _
    have hd : sqDist sx sy a b ≤ (if q.1 < sqDist sx sy a b then (sqDist sx sy a b, i, i + 1) else q).1 := by
      split_ifs with h
      · exact le_refl _
      · exact not_lt.1 h
    refine ⟨hq.trans h1, ?_, ?_⟩
    · intro l a' b' r e
      cases l with
      | nil =>
        obtain ⟨e1, e⟩ := List.cons.inj e
        obtain ⟨e2, _⟩ := List.cons.inj e
        rw [← e1, ← e2]
        exact hd.trans h1
      | cons u l =>
        obtain ⟨_, e⟩ := List.cons.inj e
        exact h2 l a' b' r e
    · rcases h3 with h3 | ⟨l, a', b', r, e, h3⟩
      · rw [h3]
        split_ifs with h
        · exact Or.inr ⟨[], a, b, pts, rfl, by simp⟩
        · exact Or.inl rfl
      · refine Or.inr ⟨a :: l, a', b', r, by rw [e]; rfl, ?_⟩
        rw [h3]
        simp only [List.length_cons]
        rw [show i + 1 + l.length = i + (l.length + 1) by omega]

theorem insertIdx_mid (l : List (ℝ × ℝ)) (a : ℝ × ℝ) (s : List (ℝ × ℝ)) (z : ℝ × ℝ) :
    (l ++ a :: s).insertIdx (l.length + 1) z = l ++ a :: z :: s := by
  induction l with
  | nil => rfl
  | cons u l ih =>
    rw [List.cons_append, List.length_cons, List.insertIdx_succ_cons, ih]
    rfl

/-- Corners that follow each other are next to each other in the list, or its last and its first. -/
theorem follows_cases {pts : List (ℝ × ℝ)} {u v : ℝ × ℝ} (h : Follows pts u v) :
    (∃ l r, pts = l ++ u :: v :: r) ∨ (pts.getLast? = some u ∧ pts.head? = some v) := by
  obtain ⟨m, hm, hl⟩ := h
  obtain ⟨k, hk, e⟩ := List.isRotated_iff_mod.1 hm
  rw [List.rotate_eq_drop_append_take hk] at e
  by_cases hd : pts.drop k = []
  · rw [hd, List.nil_append] at e
    have : pts = v :: m := by
      rw [← e]
      exact (List.take_of_length_le (List.drop_eq_nil_iff.1 hd)).symm
    right
    rw [this]
    exact ⟨hl, rfl⟩
  by_cases ht : pts.take k = []
  · rw [ht, List.append_nil] at e
    have : pts = v :: m := by
      rw [← e]
      conv_lhs => rw [← List.take_append_drop k pts, ht, List.nil_append]
    right
    rw [this]
    exact ⟨hl, rfl⟩
  left
  obtain ⟨v', r, hr⟩ := List.exists_cons_of_ne_nil hd
  have hv : v' = v := by
    rw [hr] at e
    exact (List.cons.inj e).1
  have hu : (pts.take k).getLast? = some u := by
    rw [← e] at hl
    rw [List.getLast?_append] at hl
    cases hx : (pts.take k).getLast? with
    | none => exact absurd (List.getLast?_eq_none_iff.1 hx) ht
    | some w => rw [hx] at hl; simpa using hl
  obtain ⟨l, hl'⟩ := List.getLast?_eq_some_iff.1 hu
  refine ⟨l, r, ?_⟩
  rw [← List.take_append_drop k pts, hl', hr, hv]
  simp

theorem farthest_split {sx sy : ℝ} {pts : List (ℝ × ℝ)} {i : ℕ × ℕ} {a b : ℝ × ℝ} (hi : farthest sx sy pts = .ok i)
    (ha : pts[i.1]? = some a) (hb : pts[i.2]? = some b) (z : ℝ × ℝ) :
    Split (sqDist sx sy) pts a b z (if i.2 = 0 then pts ++ [z] else pts.insertIdx i.2 z) := by
  unfold farthest at hi
  obtain ⟨a0, ha0, hi⟩ := Out.bind_eq_ok.1 hi
  obtain ⟨b0, hb0, hi⟩ := Out.bind_eq_ok.1 hi
  rw [idx_eq_ok] at ha0 hb0
  obtain ⟨h1, h2, h3⟩ := farLoop_spec sx sy pts 0 (sqDist sx sy a0 b0, pts.length - 1, 0)
  have hi' := Except.ok.inj hi
  have hmax : ∀ u v, Follows pts u v →
      sqDist sx sy u v ≤ (farLoop sx sy pts 0 (sqDist sx sy a0 b0, pts.length - 1, 0)).1 := by
    intro u v huv
    rcases follows_cases huv with ⟨l, r, e⟩ | ⟨e1, e2⟩
    · exact h2 l u v r e
    · rw [List.getLast?_eq_getElem?, ha0] at e1
      rw [List.head?_eq_getElem?, hb0] at e2
      obtain rfl := Option.some.inj e1
      obtain rfl := Option.some.inj e2
      exact h1
  rcases h3 with h3 | ⟨l, a', b', r, e, h3⟩
  · rw [h3] at hi' hmax
    subst hi'
    simp only at ha hb hmax ⊢
    rw [ha0] at ha
    rw [hb0] at hb
    obtain rfl := Option.some.inj ha
    obtain rfl := Option.some.inj hb
    rw [if_pos trivial]
    have hne : pts ≠ [] := by rintro rfl; simp at hb0
    obtain ⟨w, m, rfl⟩ := List.exists_cons_of_ne_nil hne
    have hw : w = b0 := by simpa using hb0
    subst hw
    refine ⟨⟨m, List.IsRotated.refl _, ?_, ?_⟩, rfl, List.sublist_append_left _ _, hmax⟩
    · rw [List.getLast?_eq_getElem?, ha0]
    · exact List.isRotated_append (l := w :: m) (l' := [z])
  · rw [h3] at hi' hmax
    subst hi'
    simp only [Nat.zero_add] at ha hb hmax ⊢
    subst e
    rw [List.getElem?_append_right (le_refl _), Nat.sub_self] at ha
    rw [List.getElem?_append_right (by omega), Nat.add_sub_cancel_left] at hb
    have ea : a' = a := by simpa using ha
    have eb : b' = b := by simpa using hb
    subst ea eb
    rw [if_neg (by omega)]
    have hins : (l ++ a' :: b' :: r).insertIdx (l.length + 1) z = l ++ a' :: z :: b' :: r := insertIdx_mid l a' (b' :: r) z
    rw [hins]
    refine ⟨⟨r ++ (l ++ [a']), ?_, ?_, ?_⟩, ?_, ?_, hmax⟩
    · have := List.isRotated_append (l := l ++ [a']) (l' := b' :: r)
      simpa using this
    · rw [← List.cons_append, ← List.append_assoc, List.getLast?_concat]
    · have := List.isRotated_append (l := l ++ [a']) (l' := z :: b' :: r)
      simpa using this
    · cases l <;> rfl
    · exact (List.Sublist.refl l).append (List.Sublist.cons_cons a' (List.sublist_cons_self _ _))

theorem Split.length {d : ℝ × ℝ → ℝ × ℝ → ℝ} {pts pts' : List (ℝ × ℝ)} {a b z : ℝ × ℝ} (h : Split d pts a b z pts') :
    pts'.length = pts.length + 1 := by
  obtain ⟨⟨m, h1, _, h2⟩, _⟩ := h
  rw [h2.perm.length_eq, h1.perm.length_eq]
  rfl

theorem Grows.length {d : ℝ × ℝ → ℝ × ℝ → ℝ} {Z : ℕ → ℝ × ℝ → ℝ × ℝ → ℝ × ℝ → Prop} {k i : ℕ} {pts pts' : List (ℝ × ℝ)}
    (h : Grows d Z k i pts pts') : pts.length ≤ pts'.length ∧ pts'.length ≤ pts.length + k := by
  induction h with
  | done => simp
  | skip _ ih => omega
  | step hs _ _ ih => rw [hs.length] at ih; omega

theorem Grows.mono {d : ℝ × ℝ → ℝ × ℝ → ℝ} {Z Z' : ℕ → ℝ × ℝ → ℝ × ℝ → ℝ × ℝ → Prop} (hZ : ∀ i a b z, Z i a b z → Z' i a b z)
    {k i : ℕ} {pts pts' : List (ℝ × ℝ)} (h : Grows d Z k i pts pts') : Grows d Z' k i pts pts' := by
  induction h with
  | done i pts => exact .done i pts
  | skip _ ih => exact .skip ih
  | step hs hz _ ih => exact .step hs (hZ _ _ _ _ hz) ih

/-- All corners but those there were are new corners. -/
theorem Grows.mem {d : ℝ × ℝ → ℝ × ℝ → ℝ} {Z : ℕ → ℝ × ℝ → ℝ × ℝ → ℝ × ℝ → Prop} {k i : ℕ} {pts pts' : List (ℝ × ℝ)}
    (h : Grows d Z k i pts pts') {w : ℝ × ℝ} (hw : w ∈ pts') : w ∈ pts ∨ ∃ j a b, Z j a b w := by
  induction h with
  | done => exact Or.inl hw
  | skip _ ih => exact ih hw
  | step hs hz _ ih =>
    rcases ih hw with h | h
    · obtain ⟨⟨m, h1, _, h2⟩, _⟩ := hs
      rcases List.mem_cons.1 (h2.perm.mem_iff.1 h) with rfl | h
      · exact Or.inr ⟨_, _, _, hz⟩
      · exact Or.inl (h1.perm.mem_iff.2 h)
    · exact Or.inr h

/-- The call of `cross` for two corners. -/
noncomputable def crossingOf (c : ContourArgs n) (mid dir : ℝ × ℝ) : Crossing n :=
  ⟨c.f, c.inner, c.sz, c.p, c.sol.cands, c.sol.bestCandidate.fvalue, c.fup, c.p.ftolerance, c.px, c.py, mid, dir⟩

/-- The new corner `z` is found by `cross` from the middle of `a` and `b`, at right angles to the line between them; the
direction has length 1 in the greater of the scaled coordinates. -/
def NewCorner (c : ContourArgs n) (sx sy : ℝ) (fuel : ℕ) (nos : ℕ → ℕ) (i : ℕ) (a b z : ℝ × ℝ) : Prop :=
  ∃ mid dir fc, mid.1 = (a.1 + b.1) / 2 ∧ mid.2 = (a.2 + b.2) / 2 ∧ dir.1 * (b.1 - a.1) + dir.2 * (b.2 - a.2) = 0 ∧
    max |dir.1 * sx| |dir.2 * sy| = 1 ∧ (crossingOf c mid dir).cross fuel (nos i) = .ok (some fc) ∧ fc.nevals ≠ 0 ∧
    fc.x[c.px.val]? = some z.1 ∧ fc.x[c.py.val]? = some z.2

theorem contourStep_cases {c : ContourArgs n} {sx sy : ℝ} {fuel i : ℕ} {nos : ℕ → ℕ} {pts pts' : List (ℝ × ℝ)}
    (h : contourStep c sx sy fuel (nos i) pts = .ok (some pts')) :
    pts' = pts ∨ ∃ a b z, Split (sqDist sx sy) pts a b z pts' ∧ NewCorner c sx sy fuel nos i a b z := by
  unfold contourStep at h
  obtain ⟨ij, hij, h⟩ := Out.bind_eq_ok.1 h
  obtain ⟨a, ha, h⟩ := Out.bind_eq_ok.1 h
  obtain ⟨b, hb, h⟩ := Out.bind_eq_ok.1 h
  rw [idx_eq_ok] at ha hb
  simp only at h
  by_cases h0 : max |(b.2 - a.2) * sx| |(a.1 - b.1) * sy| = 0
  · rw [if_pos h0] at h
    exact nomatch h
  rw [if_neg h0] at h
  obtain ⟨r, hr, h⟩ := Out.bind_eq_ok.1 h
  cases r with
  | none => exact nomatch h
  | some fc =>
    simp only at h
    by_cases hn : fc.nevals = 0
    · rw [if_pos hn] at h
      exact Or.inl (Option.some.inj (Except.ok.inj h)).symm
    rw [if_neg hn] at h
    obtain ⟨x, hx, h⟩ := Out.bind_eq_ok.1 h
    obtain ⟨y, hy, h⟩ := Out.bind_eq_ok.1 h
    rw [idx_eq_ok] at hx hy
    obtain rfl := Option.some.inj (Except.ok.inj h)
    refine Or.inr ⟨a, b, (x, y), farthest_split hij ha hb (x, y), _, _, fc, ?_, ?_, ?_, ?_, hr, hn, hx, hy⟩
    · simp only; ring
    · simp only; ring
    · simp only
      field_simp
      ring
    · simp only
      have hp : 0 < max |(b.2 - a.2) * sx| |(a.1 - b.1) * sy| :=
        lt_of_le_of_ne (le_max_of_le_left (abs_nonneg _)) (Ne.symm h0)
      rw [show (b.2 - a.2) / max |(b.2 - a.2) * sx| |(a.1 - b.1) * sy| * sx =
          (b.2 - a.2) * sx / max |(b.2 - a.2) * sx| |(a.1 - b.1) * sy| by ring,
        show (a.1 - b.1) / max |(b.2 - a.2) * sx| |(a.1 - b.1) * sy| * sy =
          (a.1 - b.1) * sy / max |(b.2 - a.2) * sx| |(a.1 - b.1) * sy| by ring, abs_div, abs_div, abs_of_pos hp,
        max_div_div_right hp.le, div_self hp.ne']

theorem contourLoop_grows {c : ContourArgs n} {sx sy : ℝ} {fuel : ℕ} {nos : ℕ → ℕ} : ∀ (k i : ℕ)
    {pts pts' : List (ℝ × ℝ)}, contourLoop c sx sy fuel nos k i pts = .ok (some pts') →
    Grows (sqDist sx sy) (NewCorner c sx sy fuel nos) k i pts pts'
  | 0, i, pts, pts', h => by
    obtain rfl := Option.some.inj (Except.ok.inj h)
    exact .done i pts
  | k + 1, i, pts, pts', h => by
    unfold contourLoop at h
    obtain ⟨o, ho, h⟩ := Out.bind_eq_ok.1 h
    cases o with
    | none => exact nomatch h
    | some p1 =>
      have ih := contourLoop_grows k (i + 1) h
      rcases contourStep_cases ho with rfl | ⟨a, b, z, h1, h2⟩
      · exact .skip ih
      · exact .step h1 h2 ih

end ErrStats

end Libcmaes
