import Verif.Lemmas.PwqVec

/-!
# C01-C04: the box-constraint transform of src/pwq_bound_strategy.cc
-/

namespace Libcmaes
open Spec

/-! ## C01 -/

/-- **C01.** With proper bounds, whatever the internal vector `x`: if the transform returns, its
result is inside the box; and it returns unless a coordinate is so far away that the conversion to
`int` is undefined.  In particular the library's `LOG(FATAL)` never triggers. -/
theorem C01_pheno_in_box (lb ub plb pub x : List ℝ) (hbox : ProperBox lb ub)
    (hlen : x.length = lb.length) :
    (∀ y, (Pwq.ofBounds5 lb ub plb pub).toF x = .ok y → InBox lb ub y) ∧
    (∀ e, (Pwq.ofBounds5 lb ub plb pub).toF x = .error e → e = .ub) := by
  have hlu : lb.length = ub.length := hbox.length_eq
  have hlt : ∀ (i : ℕ) (l u : ℝ), lb[i]? = some l → ub[i]? = some u → l < u := by
    intro i l u hl hu
    rw [List.getElem?_eq_some_iff] at hl hu
    obtain ⟨hi, rfl⟩ := hl
    obtain ⟨hi', rfl⟩ := hu
    exact (List.forall₂_iff_get.1 hbox).2 i hi hi'
  constructor
  · intro y hy
    obtain ⟨hxy, H⟩ := (Pwq.toF_eq_ok_iff (by omega) (by omega)).1 hy
    have key : ∀ (i : ℕ) (h1 : i < lb.length) (h2 : i < y.length) (h3 : i < ub.length),
        lb[i] ≤ y[i] ∧ y[i] ≤ ub[i] := by
      intro i h1 h2 h3
      have hx : i < x.length := by omega
      have := H i _ _ _ _ (List.getElem?_eq_getElem h1) (List.getElem?_eq_getElem h3)
        (List.getElem?_eq_getElem hx) (List.getElem?_eq_getElem h2)
      have hlt' := hlt i _ _ (List.getElem?_eq_getElem h1) (List.getElem?_eq_getElem h3)
      rcases PwqCoord.toF_cases hlt' x[i] with ⟨_, b, hb, h⟩ | ⟨_, h⟩
      · rw [hb] at this; cases this; exact h
      · rw [h] at this; cases this
    constructor
    · rw [List.forall₂_iff_get]
      exact ⟨by omega, fun i h1 h2 => (key i h1 h2 (by omega)).1⟩
    · rw [List.forall₂_iff_get]
      exact ⟨by omega, fun i h1 h2 => (key i (by omega) h1 h2).2⟩
  · intro e he
    obtain ⟨i, l, u, a, hl, hu, _, h⟩ := Pwq.toF_eq_error (by omega) (by omega) he
    rcases PwqCoord.toF_cases (hlt i l u hl hu) a with ⟨_, b, hb, _⟩ | ⟨_, h'⟩
    · rw [hb] at h; cases h
    · rw [h'] at h; cases h; rfl

/-- Witness for C01: a far-away point is really mapped, into the box. -/
example : ∃ y, (Pwq.ofBounds [-1, 0] [2, 1]).toF [1000, -300] = .ok y ∧
    InBox [-1, 0] [2, 1] y := by
  have hb : ProperBox [-1, 0] [2, 1] := by
    refine .cons (by norm_num) (.cons (by norm_num) .nil)
  cases h : (Pwq.ofBounds [-1, 0] [2, 1]).toF [1000, -300] with
  | ok y => exact ⟨y, rfl, (C01_pheno_in_box _ _ _ _ [1000, -300] hb rfl).1 y h⟩
  | error e =>
    exfalso
    obtain ⟨i, l, u, a, hl, hu, ha, he⟩ := Pwq.toF_eq_error (by simp) (by simp) h
    have mL : ∀ l u : ℝ, l < u → 0 < marginL l u := fun l u h => by
      rw [← mk'_al]; exact (PwqCoord.mk'_wf h).al_pos
    have mU : ∀ l u : ℝ, l < u → 0 < marginU l u := fun l u h => by
      rw [← mk'_au]; exact (PwqCoord.mk'_wf h).au_pos
    match i, hl, hu, ha with
    | 0, hl, hu, ha =>
      simp at hl hu ha; subst hl; subst hu; subst ha
      rcases PwqCoord.toF_cases (lb := -1) (ub := 2) (by norm_num) 1000 with ⟨_, b, hb, _⟩ | ⟨h', _⟩
      · rw [hb] at he; cases he
      · have a1 := mL (-1) 2 (by norm_num); have a2 := mU (-1) 2 (by norm_num)
        have hp : 1 ≤ period (-1) 2 := by unfold period; linarith
        unfold periodsAway at h'
        rcases le_max_iff.1 h' with h' | h' <;> rw [le_div_iff₀ (by linarith)] at h' <;> linarith
    | 1, hl, hu, ha =>
      simp at hl hu ha; subst hl; subst hu; subst ha
      rcases PwqCoord.toF_cases (lb := 0) (ub := 1) (by norm_num) (-300) with
        ⟨_, b, hb, _⟩ | ⟨h', _⟩
      · rw [hb] at he; cases he
      · have a1 := mL 0 1 (by norm_num); have a2 := mU 0 1 (by norm_num)
        have hp : 1 ≤ period 0 1 := by unfold period; linarith
        unfold periodsAway at h'
        rcases le_max_iff.1 h' with h' | h' <;> rw [le_div_iff₀ (by linarith)] at h' <;> linarith
    | (i + 2), hl, _, _ => simp at hl

/-! ## C02 -/

/-- What C02 asks of one coordinate: `F x y` says that internal value `x` is evaluated at `y`. -/
structure SmoothBoundTransform (lb ub : ℝ) (F : ℝ → ℝ → Prop) : Prop where
  /-- identity on the interior -/
  identity : ∀ x, lb + marginL lb ub ≤ x → x ≤ ub - marginU lb ub → F x x
  /-- both bounds are attained -/
  attains_lb : F (lb - marginL lb ub) lb
  attains_ub : F (ub + marginU lb ub) ub
  /-- non-decreasing over the central interval -/
  mono : ∀ x x' y y', lb - marginL lb ub ≤ x → x ≤ x' → x' ≤ ub + marginU lb ub →
    F x y → F x' y' → y ≤ y'
  /-- periodic -/
  periodic : ∀ x (m : ℤ) y y', F x y → F (x + m * period lb ub) y' → y = y'
  /-- mirror images -/
  mirror_lb : ∀ x y y', F x y → F (2 * (lb - marginL lb ub) - x) y' → y = y'
  mirror_ub : ∀ x y y', F x y → F (2 * (ub + marginU lb ub) - x) y' → y = y'
  /-- 1-Lipschitz over the whole line -/
  lipschitz : ∀ x x' y y', F x y → F x' y' → |y - y'| ≤ |x - x'|

/-- **C02**, one coordinate. -/
theorem C02_smooth_transform (lb ub : ℝ) (h : lb < ub) :
    SmoothBoundTransform lb ub (fun x y => (PwqCoord.mk' lb ub).toF x = .ok y) := by
  have wf := PwqCoord.mk'_wf h
  have hal := mk'_al lb ub
  have hau := mk'_au lb ub
  have hrr := mk'_r lb ub
  have hlb := PwqCoord.mk'_lb lb ub
  have hub := PwqCoord.mk'_ub lb ub
  have hap := wf.al_pos
  have hup := wf.au_pos
  have hl1 := wf.al_le
  have hl2 := wf.au_le
  have hr := wf.r_pos
  have hreq := wf.r_eq
  -- definedness: `ok` means that the counts fit
  have ofOk : ∀ {x y}, (PwqCoord.mk' lb ub).toF x = .ok y →
      ∃ (z : ℝ) (m : ℤ), y = (PwqCoord.mk' lb ub).foldR z ∧
        z = lb - marginL lb ub + |x - (lb - marginL lb ub) - period lb ub * m| ∧
        |x - (lb - marginL lb ub) - period lb ub * m| ≤ period lb ub / 2 := by
    intro x y hy
    by_cases hf : (PwqCoord.mk' lb ub).Fits x
    · obtain ⟨z, m, _, e, h1, h2⟩ := PwqCoord.toF_eq wf hf
      rw [e] at hy; cases hy
      rw [hlb, hal, hrr] at h1 h2
      exact ⟨z, m, rfl, h1, h2⟩
    · unfold PwqCoord.toF at hy
      rw [PwqCoord.shift_ub wf hf] at hy; cases hy
  -- central interval: the shift is the identity
  have central : ∀ {x}, lb - marginL lb ub ≤ x → x ≤ ub + marginU lb ub →
      (PwqCoord.mk' lb ub).toF x = .ok ((PwqCoord.mk' lb ub).foldR x) := by
    intro x h1 h2
    have hf : (PwqCoord.mk' lb ub).Fits x := by
      unfold PwqCoord.Fits
      rw [wf.xlow_eq, wf.xup_eq, hlb, hub, hal, hau]
      rw [hlb, hub, hal] at hl1; rw [hlb, hub, hau] at hl2
      rw [hal] at hap; rw [hau] at hup
      constructor <;> intro hh <;> exfalso <;> linarith
    obtain ⟨z, m, _, e, e1, e2⟩ := PwqCoord.toF_eq wf hf
    rw [e]
    congr 2
    rw [hlb, hal] at e1 e2
    have h0 : |x - (lb - marginL lb ub) - (PwqCoord.mk' lb ub).r * ((0 : ℤ) : ℝ)|
        ≤ (PwqCoord.mk' lb ub).r / 2 := by
      rw [hreq, hlb, hub, hal, hau]
      rw [abs_of_nonneg] <;> simp <;> linarith
    have := le_antisymm (PwqCoord.lattice_min hr e2 0) (PwqCoord.lattice_min hr h0 m)
    rw [e1, this, abs_of_nonneg] <;> simp
    linarith
  rw [hal] at hap hl1; rw [hau] at hup hl2
  rw [hlb, hub] at hl1 hl2
  rw [hrr] at hr
  have hreq' : period lb ub = 2 * (ub - lb + marginL lb ub + marginU lb ub) := by
    unfold period; ring
  -- the reduced value only depends on the distance to the lattice
  have samez : ∀ {u u' : ℝ} {m m' k : ℤ},
      |u - period lb ub * m| ≤ period lb ub / 2 → |u' - period lb ub * m'| ≤ period lb ub / 2 →
      (u' = u + period lb ub * k ∨ u' = -u + period lb ub * k) →
      |u - period lb ub * m| = |u' - period lb ub * m'| := by
    intro u u' m m' k h1 h2 h3
    rcases h3 with rfl | rfl
    · apply le_antisymm
      · refine (PwqCoord.lattice_min hr h1 (m' - k)).trans (le_of_eq ?_)
        congr 1; push_cast; ring
      · refine (PwqCoord.lattice_min hr h2 (m + k)).trans (le_of_eq ?_)
        congr 1; push_cast; ring
    · apply le_antisymm
      · refine (PwqCoord.lattice_min hr h1 (k - m')).trans (le_of_eq ?_)
        rw [← abs_neg]; congr 1; push_cast; ring
      · refine (PwqCoord.lattice_min hr h2 (k - m)).trans (le_of_eq ?_)
        rw [← abs_neg]; congr 1; push_cast; ring
  refine ⟨?_, ?_, ?_, ?_, ?_, ?_, ?_, ?_⟩
  · intro x h1 h2
    rw [central (by linarith) (by linarith), PwqCoord.foldR_mid wf (by rw [hlb, hal]; exact h1)
      (by rw [hub, hau]; exact h2)]
  · have := PwqCoord.foldR_low wf
    rw [hlb, hal] at this
    rw [central le_rfl (by linarith), this]
  · have := PwqCoord.foldR_high wf
    rw [hub, hau] at this
    rw [central (by linarith) le_rfl, this]
  · intro x x' y y' h1 h2 h3 hy hy'
    rw [central h1 (by linarith)] at hy
    rw [central (by linarith) h3] at hy'
    cases hy; cases hy'
    exact (PwqCoord.foldR_mono_lip wf (by rw [hlb, hal]; exact h1) h2
      (by rw [hub, hau]; exact h3)).1
  · intro x k y y' hy hy'
    obtain ⟨z, m, rfl, hz, hm⟩ := ofOk hy
    obtain ⟨z', m', rfl, hz', hm'⟩ := ofOk hy'
    rw [hz, hz', samez (k := k) hm hm' (Or.inl (by ring))]
  · intro x y y' hy hy'
    obtain ⟨z, m, rfl, hz, hm⟩ := ofOk hy
    obtain ⟨z', m', rfl, hz', hm'⟩ := ofOk hy'
    rw [hz, hz', samez (k := 0) hm hm' (Or.inr (by push_cast; ring))]
  · intro x y y' hy hy'
    obtain ⟨z, m, rfl, hz, hm⟩ := ofOk hy
    obtain ⟨z', m', rfl, hz', hm'⟩ := ofOk hy'
    rw [hz, hz', samez (k := 1) hm hm' (Or.inr (by push_cast; rw [hreq']; ring))]
  · intro x x' y y' hy hy'
    obtain ⟨z, m, rfl, hz, hm⟩ := ofOk hy
    obtain ⟨z', m', rfl, hz', hm'⟩ := ofOk hy'
    have b0 := abs_nonneg (x - (lb - marginL lb ub) - period lb ub * (m : ℝ))
    have b1 := abs_nonneg (x' - (lb - marginL lb ub) - period lb ub * (m' : ℝ))
    have zl : lb - marginL lb ub ≤ z := by linarith
    have zl' : lb - marginL lb ub ≤ z' := by linarith
    have zu : z ≤ ub + marginU lb ub := by linarith
    have zu' : z' ≤ ub + marginU lb ub := by linarith
    have hzz : |z - z'| ≤ |x - x'| := by
      have A : z - z' ≤ |x - x'| := by
        have h1 := PwqCoord.lattice_min hr hm m'
        have h2 : |x - (lb - marginL lb ub) - period lb ub * (m' : ℝ)| ≤
            |x' - (lb - marginL lb ub) - period lb ub * (m' : ℝ)| + |x - x'| := by
          have : x - (lb - marginL lb ub) - period lb ub * (m' : ℝ) =
            (x' - (lb - marginL lb ub) - period lb ub * (m' : ℝ)) + (x - x') := by ring
          rw [this]; exact abs_add_le _ _
        rw [hz, hz']; linarith
      have B : z' - z ≤ |x - x'| := by
        have h1 := PwqCoord.lattice_min hr hm' m
        have h2 : |x' - (lb - marginL lb ub) - period lb ub * (m : ℝ)| ≤
            |x - (lb - marginL lb ub) - period lb ub * (m : ℝ)| + |x - x'| := by
          have : x' - (lb - marginL lb ub) - period lb ub * (m : ℝ) =
            (x - (lb - marginL lb ub) - period lb ub * (m : ℝ)) - (x - x') := by ring
          rw [this]; exact abs_sub _ _
        rw [hz, hz']; linarith
      exact abs_le.2 ⟨by linarith, A⟩
    refine le_trans ?_ hzz
    rcases le_total z z' with hle | hle
    · have := PwqCoord.foldR_mono_lip wf (by rw [hlb, hal]; exact zl) hle
        (by rw [hub, hau]; exact zu')
      rw [abs_sub_comm, abs_of_nonneg (by linarith), abs_sub_comm, abs_of_nonneg (by linarith)]
      exact this.2
    · have := PwqCoord.foldR_mono_lip wf (by rw [hlb, hal]; exact zl') hle
        (by rw [hub, hau]; exact zu)
      rw [abs_of_nonneg (by linarith), abs_of_nonneg (by linarith)]
      exact this.2

/-- **C02**, whole vectors: the transform of the vector strategy is the coordinate transform of
`C02_smooth_transform` in each coordinate, with that coordinate's own bounds. -/
theorem C02_coordinatewise (lb ub plb pub x y : List ℝ) (h1 : lb.length = x.length)
    (h2 : ub.length = x.length) :
    (Pwq.ofBounds5 lb ub plb pub).toF x = .ok y ↔
      x.length = y.length ∧ ∀ (i : ℕ) (l u a b : ℝ), lb[i]? = some l → ub[i]? = some u → x[i]? = some a →
        y[i]? = some b → (PwqCoord.mk' l u).toF a = .ok b :=
  Pwq.toF_eq_ok_iff h1 h2

example : (2 : ℝ) < 3 := by norm_num

/-! ## C04 (before C03, which uses it) -/

/-- **C04**, proper bounds: the transform is defined exactly when the period count fits an `int`;
otherwise the behaviour is undefined. -/
theorem C04_defined_iff (lb ub x : ℝ) (h : lb < ub) :
    ((∃ y, (PwqCoord.mk' lb ub).toF x = .ok y) ↔ periodsAway lb ub x < 2147483648) ∧
    ((PwqCoord.mk' lb ub).toF x = .error .ub ↔ 2147483648 ≤ periodsAway lb ub x) := by
  rcases PwqCoord.toF_cases h x with ⟨h1, y, hy, _⟩ | ⟨h1, h2⟩
  · refine ⟨⟨fun _ => h1, fun _ => ⟨y, hy⟩⟩, ⟨fun he => ?_, fun he => ?_⟩⟩
    · rw [hy] at he; cases he
    · exact absurd he (not_le.2 h1)
  · refine ⟨⟨fun ⟨y, hy⟩ => ?_, fun he => ?_⟩, ⟨fun _ => h1, fun _ => h2⟩⟩
    · rw [h2] at hy; cases hy
    · exact absurd h1 (not_le.2 he)

/-- Witness: both sides of C04 occur. -/
example : periodsAway 0 1 (-300) < 2147483648 ∧ 2147483648 ≤ periodsAway 0 1 (10 ^ 11) := by
  have hL : marginL 0 1 = 1 / 20 := by unfold marginL; norm_num
  have hU : marginU 0 1 = 1 / 10 := by unfold marginU; norm_num
  unfold periodsAway period
  rw [hL, hU]
  constructor
  · rw [max_lt_iff]; constructor <;> norm_num
  · rw [le_max_iff]; right; norm_num

/-- **C04**, equal bounds: the only point at which the transform is defined is the bound itself. -/
theorem C04_equal_bounds (b x : ℝ) :
    (PwqCoord.mk' b b).toF x = if x = b then .ok b else .error .ub := by
  have hal : (PwqCoord.mk' b b).al = 0 := by
    simp only [PwqCoord.mk']; simp; positivity
  have hau : (PwqCoord.mk' b b).au = 0 := by
    simp only [PwqCoord.mk']; simp; positivity
  have hlb : (PwqCoord.mk' b b).lb = b := rfl
  have hub : (PwqCoord.mk' b b).ub = b := rfl
  have hr : (PwqCoord.mk' b b).r = 0 := by
    have h1 := hal; have h2 := hau
    simp only [PwqCoord.mk'] at h1 h2 ⊢; rw [h1]; ring
  have hlow : (PwqCoord.mk' b b).xlow = b := by
    have h1 := hal
    simp only [PwqCoord.mk'] at h1 ⊢; rw [h1]; ring
  have hup : (PwqCoord.mk' b b).xup = b := by
    have h1 := hau
    simp only [PwqCoord.mk'] at h1 ⊢; rw [h1]; ring
  unfold PwqCoord.toF PwqCoord.shift castQuot PwqCoord.fold
  rw [hal, hau, hlb, hub, hr, hlow, hup]
  rcases lt_trichotomy x b with hx | hx | hx
  · simp [hx, hx.ne]
  · subst hx
    have n5 : ¬ (x < x - 0 - 1e-15 ∨ x > x + 0 + 1e-15) := by
      rw [not_or]; constructor <;> norm_num
    simp only [lt_irrefl, gt_iff_lt, if_false, Out.pure_eq, Out.ok_bind, sub_zero, add_zero]
    rw [if_neg (by simpa using n5)]
    simp
  · simp [hx, hx.ne', not_lt.2 hx.le, Out.pure_eq]

/-! ## C03 -/

/-- **C03**, one coordinate: `geno` of a feasible value lands in the central interval and `pheno`
brings it back; and conversely over the central interval. -/
theorem C03_inverse (lb ub : ℝ) (h : lb < ub) :
    (∀ y, lb ≤ y → y ≤ ub →
      lb - marginL lb ub ≤ (PwqCoord.mk' lb ub).toInternal y ∧
      (PwqCoord.mk' lb ub).toInternal y ≤ ub + marginU lb ub ∧
      (PwqCoord.mk' lb ub).toF ((PwqCoord.mk' lb ub).toInternal y) = .ok y) ∧
    (∀ x, lb - marginL lb ub ≤ x → x ≤ ub + marginU lb ub →
      ∃ y, (PwqCoord.mk' lb ub).toF x = .ok y ∧ (PwqCoord.mk' lb ub).toInternal y = x) := by
  have wf := PwqCoord.mk'_wf h
  constructor
  · intro y h1 h2
    have hm := PwqCoord.toInternal_mem wf (y := y) h1 h2
    rw [mk'_al, mk'_au, PwqCoord.mk'_lb, PwqCoord.mk'_ub] at hm
    refine ⟨hm.1, hm.2, ?_⟩
    rw [PwqCoord.toF_central h hm.1 hm.2, PwqCoord.foldR_toInternal wf h1 h2]
  · intro x h1 h2
    refine ⟨_, PwqCoord.toF_central h h1 h2, ?_⟩
    apply PwqCoord.toInternal_foldR wf
    · rw [mk'_al, PwqCoord.mk'_lb]; exact h1
    · rw [mk'_au, PwqCoord.mk'_ub]; exact h2

/-- **C03**, whole vectors: `pheno (geno y) = y` for every feasible `y`. -/
theorem C03_roundtrip (lb ub plb pub y : List ℝ) (hbox : ProperBox lb ub) (hy : InBox lb ub y) :
    ∃ x, (Pwq.ofBounds5 lb ub plb pub).toInternal y = .ok x ∧
      (Pwq.ofBounds5 lb ub plb pub).toF x = .ok y := by
  have hl1 : lb.length = y.length := hy.1.length_eq
  have hl2 : y.length = ub.length := hy.2.length_eq
  refine ⟨(List.zipWith PwqCoord.mk' lb ub).zipWith (fun c a => c.toInternal a) y, ?_, ?_⟩
  · unfold Pwq.toInternal
    rw [Out.mapM_eq_ok, forall₂_zipIdx (R := fun a i b =>
      ((Pwq.ofBounds5 lb ub plb pub).coord i >>= fun c => pure (c.toInternal a)) = .ok b)]
    refine ⟨by simp; omega, ?_⟩
    intro i a b ha hb
    have hi : i < y.length := by rw [List.getElem?_eq_some_iff] at ha; exact ha.1
    have hl : lb[i]? = some lb[i] := List.getElem?_eq_getElem (by omega)
    have hu : ub[i]? = some ub[i] := List.getElem?_eq_getElem (by omega)
    rw [coord_ofBounds5 hl hu, Out.ok_bind]
    rw [List.getElem?_zipWith, List.getElem?_zipWith, hl, hu, ha] at hb
    simp at hb
    rw [← hb]; rfl
  · rw [Pwq.toF_eq_ok_iff (by simp; omega) (by simp; omega)]
    refine ⟨by simp; omega, ?_⟩
    intro i l u a b hl hu ha hb
    rw [List.getElem?_zipWith, List.getElem?_zipWith, hl, hu, hb] at ha
    simp at ha
    rw [← ha]
    rw [List.getElem?_eq_some_iff] at hl hu hb
    obtain ⟨il, rfl⟩ := hl
    obtain ⟨iu, rfl⟩ := hu
    obtain ⟨ib, rfl⟩ := hb
    have hlt := (List.forall₂_iff_get.1 hbox).2 i il iu
    have h1 := (List.forall₂_iff_get.1 hy.1).2 i il ib
    have h2 := (List.forall₂_iff_get.1 hy.2).2 i ib iu
    exact ((C03_inverse lb[i] ub[i] hlt).1 y[i] h1 h2).2.2

/-- Witness for C03: a proper box and a feasible point on its boundary. -/
example : ProperBox [0, -1] [1, 5] ∧ InBox [0, -1] [1, 5] [1, 0.3] :=
  ⟨.cons (by norm_num) (.cons (by norm_num) .nil),
   .cons (by norm_num) (.cons (by norm_num) .nil),
   .cons (by norm_num) (.cons (by norm_num) .nil)⟩

end Libcmaes
