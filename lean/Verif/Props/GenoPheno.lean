import Verif.Lemmas.GenoPheno
import Verif.Props.Bounds
import Verif.Props.Scaling

/-!
# C06-C09: composition of bounds, scaling and user transform (include/libcmaes/genopheno.h)
-/

namespace Libcmaes
open Spec

/-- The user's transform, if any, is inverted by the user's inverse transform. -/
def CustomInverse (custom : Option Custom) : Prop :=
  ∀ c, custom = some c → ∀ v, c.phenof (c.genof v) = v

/-- What the user wants of a bounded geno/pheno object `g`: whatever the internal vector `x` of the
right dimension, the evaluated point is in the box (or the transform is undefined because of the
integer conversion of C04), and each feasible point is reached through `geno`. -/
structure SoundBoxTransform (lb ub : List ℝ) (g : GenoPheno) : Prop where
  inBox : ∀ x y, x.length = lb.length → g.pheno x = .ok y → InBox lb ub y
  onlyUb : ∀ x e, x.length = lb.length → g.pheno x = .error e → e = .ub
  roundtrip : CustomInverse g.custom → ∀ y, InBox lb ub y → ∃ x, g.geno y = .ok x ∧ g.pheno x = .ok y

theorem applyPheno_applyGeno {g : GenoPheno} (h : CustomInverse g.custom) (v : List ℝ) :
    g.applyPheno (g.applyGeno v) = v := by
  unfold GenoPheno.applyPheno GenoPheno.applyGeno
  cases hc : g.custom with
  | none => rfl
  | some c => exact h c hc v

/-- **C06**, bounds without scaling, with or without user transform. -/
theorem C06_bounds (custom : Option Custom) (lb ub : List ℝ) (hbox : ProperBox lb ub) :
    SoundBoxTransform lb ub (GenoPheno.ofBounds custom lb ub) := by
  have hlu : lb.length = ub.length := hbox.length_eq
  constructor
  · intro x y hx hy
    exact (C01_pheno_in_box lb ub lb ub _ hbox
      (by rw [GenoPheno.applyPheno_length]; exact hx)).1 y hy
  · intro x e hx he
    exact (C01_pheno_in_box lb ub lb ub _ hbox
      (by rw [GenoPheno.applyPheno_length]; exact hx)).2 e he
  · intro hc y hy
    obtain ⟨x, h1, h2⟩ := C03_roundtrip lb ub lb ub y hbox hy
    refine ⟨(GenoPheno.ofBounds custom lb ub).applyGeno x, ?_, ?_⟩
    · show ((Pwq.ofBounds lb ub).toInternal y >>= fun z => pure _) = _
      rw [show (Pwq.ofBounds lb ub).toInternal y = .ok x from h1]; rfl
    · show (Pwq.ofBounds lb ub).toF _ = _
      rw [applyPheno_applyGeno hc]; exact h2

/-- Bounds with an arbitrary positive linear scaling: internal bounds are the scaled ones. -/
theorem soundBox_scaled (custom : Option Custom) (s : LinScaling) (lb ub nl nu plb pub : List ℝ)
    (hid : s.id = false) (hs : s.shift.length = s.scaling.length)
    (hpos : ∀ d ∈ s.scaling, 0 < d) (hlb : lb.length = s.scaling.length)
    (hbox : ProperBox lb ub) (hnl : s.toInternal lb = .ok nl) (hnu : s.toInternal ub = .ok nu) :
    SoundBoxTransform lb ub ⟨.pwq (Pwq.ofBounds5 nl nu plb pub), custom, .lin s⟩ := by
  have hlu : lb.length = ub.length := hbox.length_eq
  have hnbox := LinScaling.properBox_toInternal hs hpos hlb hbox hnl hnu
  have hnlen : nl.length = lb.length := by
    rw [LinScaling.toInternal_eq hlb (by omega)] at hnl
    cases hnl; simp; omega
  have hnlu : nl.length = nu.length := hnbox.length_eq
  set g : GenoPheno := ⟨.pwq (Pwq.ofBounds5 nl nu plb pub), custom, .lin s⟩ with hg
  have hph : ∀ x, g.pheno x =
      ((Pwq.ofBounds5 nl nu plb pub).toF (g.applyPheno x) >>= fun p => s.toF p) := by
    intro x
    show ((Pwq.ofBounds5 nl nu plb pub).toF (g.applyPheno x) >>= fun p =>
      if s.id = true then pure p else s.toF p) = _
    simp [hid]
  have toF_ok : ∀ p, p.length = lb.length → ∃ y, s.toF p = .ok y := by
    intro p hp
    exact ⟨_, LinScaling.toF_eq (by omega) (by omega) (fun d hd => (hpos d hd).ne')⟩
  constructor
  · intro x y hx hy
    rw [hph] at hy
    obtain ⟨p, hp, hy⟩ := Out.bind_eq_ok.1 hy
    have hpb := (C01_pheno_in_box nl nu plb pub _ hnbox
      (by rw [GenoPheno.applyPheno_length]; omega)).1 p hp
    exact LinScaling.inBox_of_toF hs hpos hlb (by omega) hnl hnu hpb hy
  · intro x e hx he
    rw [hph] at he
    cases hp : (Pwq.ofBounds5 nl nu plb pub).toF (g.applyPheno x) with
    | error e' =>
      rw [hp, Out.error_bind] at he
      cases he
      exact (C01_pheno_in_box nl nu plb pub _ hnbox
        (by rw [GenoPheno.applyPheno_length]; omega)).2 _ hp
    | ok p =>
      rw [hp, Out.ok_bind] at he
      have hpl := Pwq.toF_length (by rw [GenoPheno.applyPheno_length]; omega)
        (by rw [GenoPheno.applyPheno_length]; omega) hp
      rw [GenoPheno.applyPheno_length] at hpl
      obtain ⟨y, hy⟩ := toF_ok p (by omega)
      rw [hy] at he; cases he
  · intro hc y hy
    have hyl : lb.length = y.length := hy.1.length_eq
    obtain ⟨z, hzl, hz1, hz2⟩ := LinScaling.toF_toInternal hs (fun d hd => (hpos d hd).ne')
      (y := y) (by omega)
    have hzb := LinScaling.inBox_toInternal hs hpos hlb (by omega) hnl hnu hy hz1
    obtain ⟨w, hw1, hw2⟩ := C03_roundtrip nl nu plb pub z hnbox hzb
    refine ⟨g.applyGeno w, ?_, ?_⟩
    · show ((if s.id = true then pure y else s.toInternal y) >>= fun z =>
        (Pwq.ofBounds5 nl nu plb pub).toInternal z >>= fun w => pure (g.applyGeno w)) = _
      simp only [hid, Bool.false_eq_true, if_false, hz1, Out.ok_bind, hw1]
      rfl
    · rw [hph, applyPheno_applyGeno hc, hw2, Out.ok_bind, hz2]

/-- **C06**, bounds with the scaling derived from them, with or without user transform. -/
theorem C06_bounds_scaled (custom : Option Custom) (lb ub : List ℝ) (hbox : ProperBox lb ub)
    (hw : List.Forall₂ (fun l u => u - l ≤ dblMax) lb ub) :
    ∃ g, GenoPheno.ofBoundsScaled custom lb ub = .ok g ∧ SoundBoxTransform lb ub g ∧
      g.custom = custom := by
  have hlu : lb.length = ub.length := hbox.length_eq
  obtain ⟨s, hs, _, h0, h10, _⟩ := C05_bounds_scaling lb ub hbox hw
  have he := LinScaling.ofBounds_eq hbox hw
  rw [hs] at he
  injection he with he
  refine ⟨_, by unfold GenoPheno.ofBoundsScaled; rw [hs]; rfl, ?_, rfl⟩
  apply soundBox_scaled (hnl := h0) (hnu := h10) (hbox := hbox)
  · rw [he]
  · rw [he]; simp
  · rw [he]
    intro d hd
    obtain ⟨i, hi, rfl⟩ := List.mem_iff_getElem.1 hd
    simp only [List.length_zipWith] at hi
    have hlt := (List.forall₂_iff_get.1 hbox).2 i (by omega) (by omega)
    simp only [List.get_eq_getElem] at hlt
    simp only [List.getElem_zipWith]
    exact div_pos (by norm_num) (sub_pos.2 hlt)
  · rw [he]; simp; omega

/-- **C06**, bounds with a positive user scaling vector. -/
theorem C06_vectors_scaled (scaling shift lb ub : List ℝ) (hbox : ProperBox lb ub)
    (h1 : scaling.length = lb.length) (h2 : shift.length = lb.length)
    (hpos : ∀ d ∈ scaling, 0 < d) :
    ∃ g, GenoPheno.ofVectorsPwq scaling shift lb ub = .ok g ∧ SoundBoxTransform lb ub g := by
  have hlu : lb.length = ub.length := hbox.length_eq
  set s := LinScaling.ofVectors scaling shift with hs
  obtain ⟨nl, -, hnl, -⟩ := LinScaling.toF_toInternal (s := s) (by simp [hs, LinScaling.ofVectors]; omega)
    (fun d hd => (hpos d hd).ne') (y := lb) (by simp [hs, LinScaling.ofVectors]; omega)
  obtain ⟨nu, -, hnu, -⟩ := LinScaling.toF_toInternal (s := s) (by simp [hs, LinScaling.ofVectors]; omega)
    (fun d hd => (hpos d hd).ne') (y := ub) (by simp [hs, LinScaling.ofVectors]; omega)
  refine ⟨⟨.pwq (Pwq.ofBounds nl nu), none, .lin s⟩, ?_, ?_⟩
  · unfold GenoPheno.ofVectorsPwq
    rw [← hs]
    simp only [hnl, hnu, Out.ok_bind]
    rfl
  · exact soundBox_scaled none s lb ub nl nu nl nu rfl (by simp [hs, LinScaling.ofVectors]; omega)
      hpos (by simp [hs, LinScaling.ofVectors]; omega) hbox hnl hnu

/-- A *negative* scaling entry breaks the bounds: with scaling `-1`, bounds `[0,1]`, the internal
bounds are reversed and the feasible point `0.5` is not brought back by `geno`/`pheno`: the shift
count is negative. This is why C06 asks for a positive vector. -/
theorem C06_negative_scaling_false :
    ∃ g, GenoPheno.ofVectorsPwq [-1] [0] [0] [1] = .ok g ∧
      ∃ x, g.pheno [x] = .error .fatal := by
  refine ⟨⟨.pwq (Pwq.ofBounds [0] [-1]), none, .lin (LinScaling.ofVectors [-1] [0])⟩, ?_, ?_⟩
  · have h0 : (LinScaling.ofVectors [-1] [0]).toInternal [0] = .ok [0] := by
      rw [LinScaling.toInternal_eq (by rfl) (by rfl)]; simp [LinScaling.ofVectors]
    have h1 : (LinScaling.ofVectors [-1] [0]).toInternal [1] = .ok [-1] := by
      rw [LinScaling.toInternal_eq (by rfl) (by rfl)]; simp [LinScaling.ofVectors]
    unfold GenoPheno.ofVectorsPwq
    simp only [h0, h1, Out.ok_bind, Out.pure_eq]
  · refine ⟨0, ?_⟩
    have ha : (PwqCoord.mk' 0 (-1)).al = -1 / 2 := by
      simp only [PwqCoord.mk']; norm_num
    have hu : (PwqCoord.mk' 0 (-1)).au = -1 / 2 := by
      simp only [PwqCoord.mk']; norm_num
    have hlo : (PwqCoord.mk' 0 (-1)).xlow = 3 / 2 := by
      have h := ha
      simp only [PwqCoord.mk'] at h ⊢; rw [h]; norm_num
    have hup : (PwqCoord.mk' 0 (-1)).xup = -5 / 2 := by
      have h := hu
      simp only [PwqCoord.mk'] at h ⊢; rw [h]; norm_num
    have hr : (PwqCoord.mk' 0 (-1)).r = -4 := by
      have h := ha; have h' := hu
      simp only [PwqCoord.mk'] at h h' ⊢; rw [h, h']; norm_num
    have hs : (PwqCoord.mk' 0 (-1)).toF 0 = .error .fatal := by
      unfold PwqCoord.toF PwqCoord.shift castQuot castInt
      rw [ha, hu, hlo, hup, hr, PwqCoord.mk'_lb, PwqCoord.mk'_ub]
      norm_num
    show ((Pwq.ofBounds [0] [-1]).toF [0] >>= _) = _
    have hv : (Pwq.ofBounds [0] [-1]).toF [0] = .error .fatal := by
      show (List.mapM _ [((0 : ℝ), 0)]) = _
      rw [Out.mapM_cons]
      show ((Pwq.ofBounds [0] [-1]).coord 0 >>= _) >>= _ = _
      rw [show (Pwq.ofBounds [0] [-1]).coord 0 = _ from
        coord_ofBounds5 (l := 0) (u := -1) rfl rfl, Out.ok_bind, hs, Out.error_bind]
    rw [hv, Out.error_bind]

/-- **C06**, user transform alone (constructor from the two functions, no bounds and no scaling): the
evaluated point is exactly the user's, and each point is reached through `geno`. -/
theorem C06_custom_only (c : Custom) (x : List ℝ) :
    (GenoPheno.ofCustom false false c).pheno x = .ok (c.phenof x) ∧
    (GenoPheno.ofCustom false false c).geno x = .ok (c.genof x) := ⟨rfl, rfl⟩

/-- The same constructor for `<NoBoundStrategy,linScalingStrategy>` is not usable: its scaling vectors
have one element, so `pheno` is undefined in every dimension but 1. -/
theorem C06_custom_scaled_false (c : Custom) (x : List ℝ) (hx : x.length ≠ 1) :
    (GenoPheno.ofCustom false true c).pheno x = .error .ub := by
  show LinScaling.default.toF (c.phenof x) = _
  unfold LinScaling.toF cwise LinScaling.default
  rw [if_neg (by rw [c.phenof_length]; simpa using hx)]
  rfl

/-- In dimension 1 the default scaling is the identity. -/
theorem C06_custom_scaled_one (c : Custom) (x : ℝ) :
    (GenoPheno.ofCustom false true c).pheno [x] = .ok (c.phenof [x]) ∧
    LinScaling.default.id = true := by
  refine ⟨?_, rfl⟩
  show LinScaling.default.toF (c.phenof [x]) = _
  have h := c.phenof_length [x]
  obtain ⟨y, hy⟩ := List.length_eq_one_iff.1 (h.trans rfl)
  rw [hy, LinScaling.toF_eq (by rfl) (by rfl) (by simp [LinScaling.default])]
  simp [LinScaling.default]

/-- Witness for C06: a box, a non-trivial user transform and its inverse. -/
example : ∃ c : Custom, CustomInverse (some c) ∧ c.genof [1, 2] ≠ [1, 2] ∧
    ProperBox [0, -3] [1, 5] := by
  refine ⟨⟨fun v => v.map (2 * ·), fun v => v.map (· / 2), by simp, by simp⟩, ?_, ?_, ?_⟩
  · intro c hc v
    cases hc
    simp [List.map_map, Function.comp_def]
  · simp
  · exact .cons (by norm_num) (.cons (by norm_num) .nil)

/-! ## C07 -/

/-- A schedule that executes every column of a `n`-column matrix exactly once in each loop. -/
def GenoPheno.Schedule.Complete (o : GenoPheno.Schedule) (n : ℕ) : Prop :=
  o.custom.Perm (List.range n) ∧ o.bound.Perm (List.range n) ∧ o.scale.Perm (List.range n)

/-- **C07**, `pheno`: for every policy and every schedule of the parallel loops, the matrix version
returns `ys` iff the vector version applied to each column returns the columns of `ys`. -/
theorem C07_pheno_matrix (g : GenoPheno) (o : GenoPheno.Schedule) (m ys : List (List ℝ))
    (ho : o.Complete m.length) : g.phenoMat o m = .ok ys ↔ m.mapM g.pheno = .ok ys := by
  obtain ⟨h1, h2, h3⟩ := ho
  have hcand : g.phenoCandidates o.custom m = .ok (m.map g.applyPheno) :=
    (g.phenoCandidates_spec h1).2 rfl
  unfold GenoPheno.phenoMat GenoPheno.pheno
  cases g.bound with
  | noBound =>
    cases g.scale with
    | noScaling => simp only []; rw [hcand, mapM_ok]
    | lin s =>
      simp only []
      rw [hcand, Out.ok_bind, GenoPheno.parCols_eq_mapM _ (by simpa using h3), Out.mapM_map]
  | pwq b =>
    cases g.scale with
    | noScaling =>
      simp only []
      rw [hcand, Out.ok_bind, GenoPheno.parCols_eq_mapM _ (by simpa using h2), Out.mapM_map]
    | lin s =>
      simp only []
      rw [hcand, Out.ok_bind]
      constructor
      · intro h
        obtain ⟨n2, hn2, h⟩ := Out.bind_eq_ok.1 h
        rw [GenoPheno.parCols_eq_mapM _ (by simpa using h2), Out.mapM_map] at hn2
        rw [Out.mapM_bind_eq_ok]
        refine ⟨n2, hn2, ?_⟩
        cases hid : s.id with
        | true =>
          simp only [hid, if_true] at h ⊢
          injection h with h
          rw [← h]
          have := mapM_ok (fun x : List ℝ => x) n2
          rw [List.map_id'] at this
          exact this
        | false =>
          simp only [hid, Bool.false_eq_true, if_false] at h ⊢
          rwa [GenoPheno.parCols_eq_mapM _ (by rw [← Out.mapM_length hn2]; exact h3)] at h
      · intro h
        rw [Out.mapM_bind_eq_ok] at h
        obtain ⟨n2, hn2, h⟩ := h
        have : GenoPheno.parCols o.bound b.toF (m.map g.applyPheno) = .ok n2 := by
          rw [GenoPheno.parCols_eq_mapM _ (by simpa using h2), Out.mapM_map]; exact hn2
        rw [this, Out.ok_bind]
        cases hid : s.id with
        | true =>
          simp only [hid, if_true] at h ⊢
          rw [show (fun p : List ℝ => (pure p : Out (List ℝ))) = fun p => .ok (id p) from rfl,
            mapM_ok, List.map_id] at h
          exact h
        | false =>
          simp only [hid, Bool.false_eq_true, if_false] at h ⊢
          rwa [GenoPheno.parCols_eq_mapM _ (by rw [← Out.mapM_length hn2]; exact h3)]

/-- **C07**, `geno` (instances with a bound strategy, the only ones that compile). -/
theorem C07_geno_matrix (g : GenoPheno) (b : Pwq) (hb : g.bound = .pwq b) (o : GenoPheno.Schedule)
    (m ys : List (List ℝ)) (ho : o.Complete m.length) :
    g.genoMat o m = .ok ys ↔ m.mapM g.geno = .ok ys := by
  obtain ⟨h1, h2, h3⟩ := ho
  -- after the scaling loop
  have tail : ∀ n : List (List ℝ), n.length = m.length →
      ((GenoPheno.parCols o.bound b.toInternal n >>= fun n2 => g.genoCandidates o.custom n2) =
        .ok ys ↔ n.mapM (fun z => b.toInternal z >>= fun w => pure (g.applyGeno w)) = .ok ys) := by
    intro n hn
    rw [Out.mapM_bind_eq_ok, Out.bind_eq_ok]
    constructor
    · rintro ⟨n2, h4, h5⟩
      rw [GenoPheno.parCols_eq_mapM _ (by rw [hn]; exact h2)] at h4
      rw [GenoPheno.genoCandidates_spec g (by rw [← Out.mapM_length h4, hn]; exact h1)] at h5
      refine ⟨n2, h4, ?_⟩
      rw [h5]; exact mapM_ok _ _
    · rintro ⟨n2, h4, h5⟩
      refine ⟨n2, ?_, ?_⟩
      · rw [GenoPheno.parCols_eq_mapM _ (by rw [hn]; exact h2)]; exact h4
      · rw [GenoPheno.genoCandidates_spec g (by rw [← Out.mapM_length h4, hn]; exact h1)]
        rw [show (fun w => (pure (g.applyGeno w) : Out (List ℝ))) = fun w => .ok (g.applyGeno w)
          from rfl, mapM_ok] at h5
        cases h5; rfl
  unfold GenoPheno.genoMat GenoPheno.geno
  rw [hb]
  cases g.scale with
  | noScaling =>
    simp only [Out.ok_bind]
    exact tail m rfl
  | lin s =>
    simp only []
    cases hid : s.id with
    | true =>
      simp only [if_true, Out.ok_bind, Out.pure_eq]
      exact tail m rfl
    | false =>
      simp only [Bool.false_eq_true, if_false]
      rw [Out.mapM_bind_eq_ok, Out.bind_eq_ok]
      constructor
      · rintro ⟨n, h4, h5⟩
        rw [GenoPheno.parCols_eq_mapM _ h3] at h4
        exact ⟨n, h4, (tail n (Out.mapM_length h4).symm).1 h5⟩
      · rintro ⟨n, h4, h5⟩
        refine ⟨n, ?_, (tail n (Out.mapM_length h4).symm).2 h5⟩
        rw [GenoPheno.parCols_eq_mapM _ h3]; exact h4

/-- Witness for C07: a schedule that is not the sequential one. -/
example : (⟨[2, 0, 1], [1, 2, 0], [0, 1, 2]⟩ : GenoPheno.Schedule).Complete 3 := by
  refine ⟨?_, ?_, ?_⟩ <;> decide

/-! ## C08 -/

/-- **C08** for the constructors from bounds, with or without scaling: the reported bounds are the
user's. -/
theorem C08_reported_bounds_partial (custom : Option Custom) (lb ub : List ℝ) (k : ℕ) :
    (GenoPheno.ofBounds custom lb ub).phenoLBound k = idx lb k ∧
    (GenoPheno.ofBounds custom lb ub).phenoUBound k = idx ub k ∧
    (∀ g, GenoPheno.ofBoundsScaled custom lb ub = .ok g →
      g.phenoLBound k = idx lb k ∧ g.phenoUBound k = idx ub k) := by
  refine ⟨rfl, rfl, ?_⟩
  intro g hg
  unfold GenoPheno.ofBoundsScaled at hg
  obtain ⟨s, _, hg⟩ := Out.bind_eq_ok.1 hg
  cases hg
  exact ⟨rfl, rfl⟩

/-- **C08** without bounds: the reported bounds are the largest `double`s, so every finite `double` is
between them; and the internal bounds are those in internal units: the user's without scaling, 10 with
the scaling derived from the bounds. -/
theorem C08_no_bounds_partial (g : GenoPheno) (hg : g.bound = .noBound) (k : ℕ) :
    g.phenoLBound k = .ok (-dblMax) ∧ g.phenoUBound k = .ok dblMax ∧ g.uBound k = .ok dblMax ∧
    ∀ custom lb ub, lb.length = ub.length →
      (GenoPheno.ofBounds custom lb ub).uBound k = idx ub k ∧
      ∀ g', GenoPheno.ofBoundsScaled custom lb ub = .ok g' → k < lb.length → g'.uBound k = .ok 10 := by
  refine ⟨by simp [GenoPheno.phenoLBound, hg], by simp [GenoPheno.phenoUBound, hg],
    by simp [GenoPheno.uBound, hg], ?_⟩
  intro custom lb ub hlen
  constructor
  · show idx ((List.zipWith PwqCoord.mk' lb ub).map (·.ub)) k = _
    congr 1
    rw [List.map_zipWith]
    clear hg
    induction lb generalizing ub with
    | nil => cases ub with
      | nil => rfl
      | cons _ _ => simp at hlen
    | cons l lb ih => cases ub with
      | nil => simp at hlen
      | cons u ub =>
        rw [List.zipWith_cons_cons, ih ub (by simpa using hlen)]
        rfl
  · intro g' hg' hk
    unfold GenoPheno.ofBoundsScaled at hg'
    obtain ⟨s, _, hg'⟩ := Out.bind_eq_ok.1 hg'
    cases hg'
    show idx ((List.zipWith PwqCoord.mk' (List.replicate lb.length 0)
      (List.replicate lb.length 10)).map (·.ub)) k = _
    rw [idx_eq_ok, List.map_zipWith, List.getElem?_zipWith]
    simp [hk, PwqCoord.mk'_ub]

example : GenoPheno.plain.bound = .noBound := rfl

/-- **C08** is false for the scaling-vector constructor: with scaling 2 and bounds `[1,3]` the
object reports the lower bound 2. -/
theorem C08_reported_bounds_false :
    ∃ g, GenoPheno.ofVectorsPwq [2] [0] [1] [3] = .ok g ∧ g.phenoLBound 0 = .ok 2 ∧
      g.phenoLBound 0 ≠ idx [1] 0 := by
  have h0 : (LinScaling.ofVectors [2] [0]).toInternal [1] = .ok [2] := by
    rw [LinScaling.toInternal_eq (by rfl) (by rfl)]; simp [LinScaling.ofVectors]
  have h1 : (LinScaling.ofVectors [2] [0]).toInternal [3] = .ok [6] := by
    rw [LinScaling.toInternal_eq (by rfl) (by rfl)]; simp [LinScaling.ofVectors]; norm_num
  refine ⟨⟨.pwq (Pwq.ofBounds [2] [6]), none, .lin (LinScaling.ofVectors [2] [0])⟩, ?_, rfl, ?_⟩
  · unfold GenoPheno.ofVectorsPwq
    simp only [h0, h1, Out.ok_bind, Out.pure_eq]
  · show (Except.ok 2 : Out ℝ) ≠ .ok 1
    intro h
    injection h with h
    norm_num at h

/-! ## C09 -/

/-- **C09** for the policies with a bound strategy and for no bound/no scaling: the user's `genof`
is applied last to what the object without user transform computes. -/
theorem C09_geno_custom_partial (g : GenoPheno) (c : Custom) (hc : g.custom = some c)
    (hpol : ∀ s, ¬ (g.bound = .noBound ∧ g.scale = .lin s)) (y : List ℝ) :
    g.geno y = (({ g with custom := none } : GenoPheno).geno y >>= fun z => .ok (c.genof z)) := by
  unfold GenoPheno.geno
  cases hb : g.bound with
  | noBound =>
    cases hs : g.scale with
    | noScaling => simp [GenoPheno.applyGeno, hc]
    | lin s => exact absurd ⟨hb, hs⟩ (hpol s)
  | pwq b =>
    cases hs : g.scale with
    | noScaling => simp [GenoPheno.applyGeno, hc, Out.pure_eq, bind_assoc]
    | lin s => simp [GenoPheno.applyGeno, hc, Out.pure_eq, bind_assoc]

/-- **C09** is false for `GenoPheno<NoBoundStrategy,linScalingStrategy>`: with a user transform the
result of `geno` is never defined, for no input whatsoever. -/
theorem C09_geno_custom_false (c : Custom) (s : LinScaling) (y z : List ℝ) :
    (⟨.noBound, some c, .lin s⟩ : GenoPheno).geno y ≠ .ok z := by
  unfold GenoPheno.geno
  simp only []
  cases s.toInternal y <;> simp

end Libcmaes
