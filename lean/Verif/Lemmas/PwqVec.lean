import Verif.Lemmas.Pwq
import Verif.Spec.Box

namespace Libcmaes
open Spec

/-! ## Bridging lemmas -/

theorem mk'_al (lb ub : ℝ) : (PwqCoord.mk' lb ub).al = marginL lb ub := by
  simp only [PwqCoord.mk', marginL]; congr 1 <;> ring

theorem mk'_au (lb ub : ℝ) : (PwqCoord.mk' lb ub).au = marginU lb ub := by
  simp only [PwqCoord.mk', marginU]; congr 1 <;> ring

theorem mk'_r (lb ub : ℝ) : (PwqCoord.mk' lb ub).r = period lb ub := by
  have h1 := mk'_al lb ub
  have h2 := mk'_au lb ub
  simp only [PwqCoord.mk'] at h1 h2
  simp only [PwqCoord.mk', period, h1, h2]; ring

theorem mk'_xlow (lb ub : ℝ) :
    (PwqCoord.mk' lb ub).xlow = lb - 2 * marginL lb ub - (ub - lb) / 2 := by
  have h1 := mk'_al lb ub
  simp only [PwqCoord.mk'] at h1
  simp only [PwqCoord.mk', h1]; ring

theorem mk'_xup (lb ub : ℝ) :
    (PwqCoord.mk' lb ub).xup = ub + 2 * marginU lb ub + (ub - lb) / 2 := by
  have h1 := mk'_au lb ub
  simp only [PwqCoord.mk'] at h1
  simp only [PwqCoord.mk', h1]; ring

theorem fits_iff {lb ub x : ℝ} (h : lb < ub) :
    (PwqCoord.mk' lb ub).Fits x ↔ periodsAway lb ub x < 2147483648 := by
  have hr := (PwqCoord.mk'_wf h).r_pos
  unfold PwqCoord.Fits periodsAway
  rw [mk'_xlow, mk'_xup]; rw [mk'_r] at hr ⊢
  rw [max_lt_iff]
  have key : ∀ a : ℝ, ¬ (0 < a) → a / period lb ub < 2147483648 := by
    intro a ha
    have : a / period lb ub ≤ 0 := div_nonpos_of_nonpos_of_nonneg (not_lt.1 ha) hr.le
    linarith
  constructor
  · rintro ⟨h1, h2⟩
    constructor
    · by_cases hx : x < lb - 2 * marginL lb ub - (ub - lb) / 2
      · exact h1 hx
      · exact key _ (by linarith)
    · by_cases hx : ub + 2 * marginU lb ub + (ub - lb) / 2 < x
      · exact h2 hx
      · exact key _ (by linarith)
  · rintro ⟨h1, h2⟩
    exact ⟨fun _ => h1, fun _ => h2⟩

theorem coord_ofBounds5 {lb ub plb pub : List ℝ} {i : ℕ} {l u : ℝ} (hl : lb[i]? = some l)
    (hu : ub[i]? = some u) : (Pwq.ofBounds5 lb ub plb pub).coord i = .ok (PwqCoord.mk' l u) := by
  unfold Pwq.ofBounds5 Pwq.coord
  have hz : (List.zipWith PwqCoord.mk' lb ub)[i]? = some (PwqCoord.mk' l u) := by
    rw [List.getElem?_zipWith, hl, hu]
  have hm : ∀ g : PwqCoord → ℝ,
      idx ((List.zipWith PwqCoord.mk' lb ub).map g) i = .ok (g (PwqCoord.mk' l u)) := by
    intro g; rw [idx_eq_ok, List.getElem?_map, hz]; rfl
  simp only [hm, Out.ok_bind, Out.pure_eq]

/-- The vector transform acts on each coordinate with that coordinate's own bounds. -/
theorem Pwq.toF_eq_ok_iff {lb ub plb pub x y : List ℝ} (h1 : lb.length = x.length)
    (h2 : ub.length = x.length) :
    (Pwq.ofBounds5 lb ub plb pub).toF x = .ok y ↔
      x.length = y.length ∧ ∀ (i : ℕ) (l u a b : ℝ), lb[i]? = some l → ub[i]? = some u → x[i]? = some a →
        y[i]? = some b → (PwqCoord.mk' l u).toF a = .ok b := by
  unfold Pwq.toF
  rw [Out.mapM_eq_ok]
  rw [forall₂_zipIdx (R := fun a i b => ((Pwq.ofBounds5 lb ub plb pub).coord i >>=
    fun c => c.toF a) = .ok b)]
  apply and_congr_right
  intro hlen
  constructor
  · intro h i l u a b hl hu ha hb
    have := h i a b ha hb
    rwa [coord_ofBounds5 hl hu, Out.ok_bind] at this
  · intro h i a b ha hb
    have hi : i < x.length := by
      rw [List.getElem?_eq_some_iff] at ha; exact ha.1
    have hl : lb[i]? = some lb[i] := List.getElem?_eq_getElem (by omega)
    have hu : ub[i]? = some ub[i] := List.getElem?_eq_getElem (by omega)
    rw [coord_ofBounds5 hl hu, Out.ok_bind]
    exact h i _ _ a b hl hu ha hb

theorem Pwq.toF_eq_error {lb ub plb pub x : List ℝ} {e : Err} (h1 : lb.length = x.length)
    (h2 : ub.length = x.length) (h : (Pwq.ofBounds5 lb ub plb pub).toF x = .error e) :
    ∃ (i : ℕ) (l u a : ℝ), lb[i]? = some l ∧ ub[i]? = some u ∧ x[i]? = some a ∧
      (PwqCoord.mk' l u).toF a = .error e := by
  obtain ⟨⟨a, i⟩, hmem, he⟩ := Out.mapM_eq_error h
  have ha : x[i]? = some a := by
    have := List.mem_zipIdx_iff_getElem?.1 hmem
    simpa using this
  have hi : i < x.length := by
    rw [List.getElem?_eq_some_iff] at ha; exact ha.1
  have hl : lb[i]? = some lb[i] := List.getElem?_eq_getElem (by omega)
  have hu : ub[i]? = some ub[i] := List.getElem?_eq_getElem (by omega)
  refine ⟨i, _, _, a, hl, hu, ha, ?_⟩
  simp only [] at he
  rwa [coord_ofBounds5 hl hu, Out.ok_bind] at he

/-- A coordinate with proper bounds either is transformed into the bounds, or its shift count does
not fit an `int`. -/
theorem PwqCoord.toF_cases {lb ub : ℝ} (h : lb < ub) (x : ℝ) :
    (periodsAway lb ub x < 2147483648 ∧
      ∃ y, (PwqCoord.mk' lb ub).toF x = .ok y ∧ lb ≤ y ∧ y ≤ ub) ∨
    (2147483648 ≤ periodsAway lb ub x ∧ (PwqCoord.mk' lb ub).toF x = .error .ub) := by
  have wf := PwqCoord.mk'_wf h
  by_cases hf : (PwqCoord.mk' lb ub).Fits x
  · left
    refine ⟨(fits_iff h).1 hf, ?_⟩
    obtain ⟨y, m, _, e, h1, h2⟩ := PwqCoord.toF_eq wf hf
    refine ⟨_, e, ?_⟩
    have := abs_nonneg (x - ((PwqCoord.mk' lb ub).lb - (PwqCoord.mk' lb ub).al) -
      (PwqCoord.mk' lb ub).r * m)
    have hr := wf.r_eq
    exact PwqCoord.foldR_mem wf (by linarith) (by linarith)
  · right
    refine ⟨not_lt.1 fun hh => hf ((fits_iff h).2 hh), ?_⟩
    unfold PwqCoord.toF
    rw [PwqCoord.shift_ub wf hf]; rfl

theorem PwqCoord.toInternal_mem {c : PwqCoord} (wf : c.WF) {y : ℝ} (h1 : c.lb ≤ y)
    (h2 : y ≤ c.ub) : c.lb - c.al ≤ c.toInternal y ∧ c.toInternal y ≤ c.ub + c.au := by
  have ha := wf.al_pos; have hu := wf.au_pos; have hl := wf.al_le; have hl' := wf.au_le
  unfold PwqCoord.toInternal
  split_ifs with g1 g2
  · have hs : 0 ≤ Real.sqrt (c.al * |c.lb - y|) := Real.sqrt_nonneg _
    have hs2 : Real.sqrt (c.al * |c.lb - y|) ≤ c.al := by
      apply Real.sqrt_le_iff.2 ⟨ha.le, ?_⟩
      rw [abs_sub_comm, abs_of_nonneg (by linarith)]
      nlinarith
    constructor <;> linarith
  · have hs : 0 ≤ Real.sqrt (c.au * |y - c.ub|) := Real.sqrt_nonneg _
    have hs2 : Real.sqrt (c.au * |y - c.ub|) ≤ c.au := by
      apply Real.sqrt_le_iff.2 ⟨hu.le, ?_⟩
      rw [abs_sub_comm, abs_of_nonneg (by linarith)]
      nlinarith
    constructor <;> linarith
  · constructor <;> linarith

theorem PwqCoord.foldR_toInternal {c : PwqCoord} (wf : c.WF) {y : ℝ} (h1 : c.lb ≤ y)
    (h2 : y ≤ c.ub) : c.foldR (c.toInternal y) = y := by
  have ha := wf.al_pos; have hu := wf.au_pos; have hl := wf.al_le; have hl' := wf.au_le
  unfold PwqCoord.toInternal
  split_ifs with g1 g2
  · have hnn : 0 ≤ c.al * |c.lb - y| := mul_nonneg ha.le (abs_nonneg _)
    have hs2 : Real.sqrt (c.al * |c.lb - y|) ≤ c.al := by
      apply Real.sqrt_le_iff.2 ⟨ha.le, ?_⟩
      rw [abs_sub_comm, abs_of_nonneg (by linarith)]
      nlinarith
    rw [PwqCoord.foldR_left wf (by linarith)]
    have e : (c.lb - c.al + 2 * Real.sqrt (c.al * |c.lb - y|) - (c.lb - c.al)) ^ 2 =
        4 * (c.al * |c.lb - y|) := by
      rw [add_sub_cancel_left, mul_pow, Real.sq_sqrt hnn]; ring
    rw [e, abs_sub_comm, abs_of_nonneg (by linarith)]
    field_simp; ring
  · have hnn : 0 ≤ c.au * |y - c.ub| := mul_nonneg hu.le (abs_nonneg _)
    have hs2 : Real.sqrt (c.au * |y - c.ub|) ≤ c.au := by
      apply Real.sqrt_le_iff.2 ⟨hu.le, ?_⟩
      rw [abs_sub_comm, abs_of_nonneg (by linarith)]
      nlinarith
    rw [PwqCoord.foldR_right wf (by linarith)]
    have e : (c.ub + c.au - 2 * Real.sqrt (c.au * |y - c.ub|) - (c.ub + c.au)) ^ 2 =
        4 * (c.au * |y - c.ub|) := by
      have : c.ub + c.au - 2 * Real.sqrt (c.au * |y - c.ub|) - (c.ub + c.au) =
        -(2 * Real.sqrt (c.au * |y - c.ub|)) := by ring
      rw [this, neg_sq, mul_pow, Real.sq_sqrt hnn]; ring
    rw [e, abs_sub_comm, abs_of_nonneg (by linarith)]
    field_simp; ring
  · exact PwqCoord.foldR_mid wf (by linarith) (by linarith)

theorem PwqCoord.toInternal_foldR {c : PwqCoord} (wf : c.WF) {x : ℝ} (h1 : c.lb - c.al ≤ x)
    (h2 : x ≤ c.ub + c.au) : c.toInternal (c.foldR x) = x := by
  have ha := wf.al_pos; have hu := wf.au_pos; have hl := wf.al_le; have hl' := wf.au_le
  rcases lt_or_ge x (c.lb + c.al) with g1 | g1
  · have e := PwqCoord.foldR_left wf g1.le
    have lt : c.foldR x < c.lb + c.al := by
      rw [e]
      have : (x - (c.lb - c.al)) ^ 2 / (4 * c.al) < c.al := by
        rw [div_lt_iff₀ (by linarith)]; nlinarith
      linarith
    unfold PwqCoord.toInternal
    rw [if_pos lt, e]
    have : c.al * |c.lb - (c.lb + (x - (c.lb - c.al)) ^ 2 / (4 * c.al))|
        = ((x - (c.lb - c.al)) / 2) ^ 2 := by
      rw [sub_add_cancel_left, abs_neg, abs_of_nonneg (by positivity)]
      field_simp; norm_num
    rw [this, Real.sqrt_sq (by linarith)]; ring
  · rcases lt_or_ge (c.ub - c.au) x with g2 | g2
    · have e := PwqCoord.foldR_right wf g2.le
      have gt : c.ub - c.au < c.foldR x := by
        rw [e]
        have : (x - (c.ub + c.au)) ^ 2 / (4 * c.au) < c.au := by
          rw [div_lt_iff₀ (by linarith)]; nlinarith
        linarith
      unfold PwqCoord.toInternal
      rw [if_neg (by linarith), if_pos gt, e]
      have : c.au * |c.ub - (x - (c.ub + c.au)) ^ 2 / (4 * c.au) - c.ub|
          = ((c.ub + c.au - x) / 2) ^ 2 := by
        rw [sub_sub_cancel_left, abs_neg, abs_of_nonneg (by positivity)]
        field_simp; ring
      rw [this, Real.sqrt_sq (by linarith)]; ring
    · rw [PwqCoord.foldR_mid wf g1 g2]
      unfold PwqCoord.toInternal
      rw [if_neg (by linarith), if_neg (by linarith)]

theorem PwqCoord.toF_central {lb ub : ℝ} (h : lb < ub) {x : ℝ} (h1 : lb - marginL lb ub ≤ x)
    (h2 : x ≤ ub + marginU lb ub) :
    (PwqCoord.mk' lb ub).toF x = .ok ((PwqCoord.mk' lb ub).foldR x) := by
  have wf := PwqCoord.mk'_wf h
  have hap := wf.al_pos
  have hup := wf.au_pos
  have hl1 := wf.al_le
  have hl2 := wf.au_le
  rw [mk'_al] at hap hl1; rw [mk'_au] at hup hl2
  rw [PwqCoord.mk'_lb, PwqCoord.mk'_ub] at hl1 hl2
  unfold PwqCoord.toF
  have hs : (PwqCoord.mk' lb ub).shift x = .ok x := by
    unfold PwqCoord.shift
    rw [mk'_xlow, mk'_xup, mk'_al, mk'_au, PwqCoord.mk'_lb, PwqCoord.mk'_ub]
    have n1 : ¬ x < lb - 2 * marginL lb ub - (ub - lb) / 2 := by linarith
    have n2 : ¬ x > ub + 2 * marginU lb ub + (ub - lb) / 2 := by linarith
    have n3 : ¬ x < lb - marginL lb ub := by linarith
    have n4 : ¬ x > ub + marginU lb ub := by linarith
    have n5 : ¬ (x < lb - marginL lb ub - 1e-15 ∨ x > ub + marginU lb ub + 1e-15) := by
      rw [not_or]; constructor <;> norm_num <;> linarith
    simp only [n1, n2, n3, n4, n5, if_false, Out.pure_eq, Out.ok_bind]
  rw [hs, Out.ok_bind, PwqCoord.fold_eq wf]

end Libcmaes
