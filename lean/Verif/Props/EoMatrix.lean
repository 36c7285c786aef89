import Verif.Lemmas.EoMatrix

/-!
# C10: deleting and re-inserting coordinates (include/libcmaes/eo_matrix.h)
-/

namespace Libcmaes

/-- **C10**, one vector: removing strictly decreasing indices leaves exactly the coordinates whose
index is not listed (indices past the end are ignored). -/
theorem C10_remove_decreasing {α : Type} (v : List α) (ks : List ℕ) (h : ks.Pairwise (· > ·)) :
    removeElements v ks = survivors ks v :=
  removeElements_eq_survivors v ks h

example : ([7, 3, 0] : List ℕ).Pairwise (· > ·) := by decide

/-- **C10** is false for increasing indices, the order used by
src/errstats.cc:232-313: removing coordinates 0 and 1 of `[a,b,c]` removes 0 and 2. -/
theorem C10_remove_increasing_false :
    removeElements ["a", "b", "c"] [0, 1] = ["b"] ∧ survivors [0, 1] ["a", "b", "c"] = ["c"] := by
  decide

/-- **C10**, re-insertion: inserting the removed value at the removed index restores the vector. -/
theorem C10_add_remove {α : Type} (v : List α) (k : ℕ) (x : α) (hk : v[k]? = some x) :
    addElement (removeElement v k) k x = v := by
  have hlt : k < v.length := by
    rw [List.getElem?_eq_some_iff] at hk; exact hk.1
  unfold removeElement
  rw [if_neg (by omega)]
  unfold addElement
  rw [if_neg (by simp; omega)]
  have h1 : (v.take k ++ v.drop (k + 1)).take k = v.take k := by
    rw [List.take_append_of_le_length (by simp; omega), List.take_take, min_self]
  have h2 : (v.take k ++ v.drop (k + 1)).drop k = v.drop (k + 1) := by
    rw [List.drop_append_of_le_length (by simp; omega), List.drop_eq_nil_of_le (by simp)]; rfl
  rw [h1, h2]
  have h3 : x :: v.drop (k + 1) = v.drop k := by
    rw [List.drop_eq_getElem_cons hlt]
    rw [List.getElem?_eq_some_iff] at hk
    obtain ⟨_, rfl⟩ := hk
    rfl
  rw [h3, List.take_append_drop]

/-- **C10**, the other way round: removing an inserted element restores the vector. -/
theorem C10_remove_add {α : Type} (v : List α) (k : ℕ) (x : α) (hk : k ≤ v.length) :
    removeElement (addElement v k x) k = v := by
  unfold addElement
  rw [if_neg (by omega)]
  unfold removeElement
  rw [if_neg (by simp; omega)]
  have h1 : (v.take k ++ x :: v.drop k).take k = v.take k := by
    rw [List.take_append_of_le_length (by simp; omega), List.take_take, min_self]
  have h2 : (v.take k ++ x :: v.drop k).drop (k + 1) = v.drop k := by
    rw [List.drop_append]
    simp [List.length_take, min_eq_left hk]
  rw [h1, h2, List.take_append_drop]

example : (["a", "b", "c"] : List String)[1]? = some "b" ∧ 1 ≤ ["a", "b", "c"].length := by decide

/-- The re-insertion relies on `std::copy` behaving as `memmove` on overlapping ranges, which the
C++ standard does not promise: the element-by-element forward copy loses data. -/
theorem C10_add_forward_copy_false :
    addElementForward (removeElement ["a", "b", "c", "d"] 1) 1 "b" ≠ ["a", "b", "c", "d"] := by
  decide

/-- **C10**, bound strategy: after removing (decreasing) indices, each surviving coordinate is
transformed as it was before. -/
theorem C10_bounds_survive (lb ub plb pub x y : List ℝ) (ks : List ℕ) (hk : ks.Pairwise (· > ·))
    (h1 : lb.length = x.length) (h2 : ub.length = x.length)
    (h : (Pwq.ofBounds5 lb ub plb pub).toF x = .ok y) :
    ((Pwq.ofBounds5 lb ub plb pub).removeDimensions ks).toF (survivors ks x) =
      .ok (survivors ks y) := by
  have h3 : x.length = y.length := ((Pwq.toF_eq_ok_iff h1 h2).1 h).1
  rw [Pwq.removeDimensions_ofBounds5 ks hk (by omega)]
  rw [Pwq.toF_forall₂ (survivors_length ks h1) (survivors_length ks h2) (survivors_length ks h3)]
  rw [Pwq.toF_forall₂ h1 h2 h3] at h
  have := survivors_forall₂ ks h
  rwa [survivors_zipWith _ ks (by omega), show x.zip y = List.zipWith Prod.mk x y from rfl,
    survivors_zipWith _ ks h3] at this

/-- **C10**, linear scaling: after removing (decreasing) indices, each surviving coordinate is
scaled as it was before. -/
theorem C10_scaling_survive (s : LinScaling) (x y : List ℝ) (ks : List ℕ)
    (hk : ks.Pairwise (· > ·)) (h1 : x.length = s.scaling.length) (h2 : x.length = s.shift.length)
    (h0 : ∀ d ∈ s.scaling, d ≠ 0) (h : s.toF x = .ok y) :
    (s.removeDimensions ks).toF (survivors ks x) = .ok (survivors ks y) := by
  rw [LinScaling.toF_eq h1 h2 h0] at h
  cases h
  have e1 : (s.removeDimensions ks).scaling = survivors ks s.scaling :=
    removeElements_eq_survivors _ _ hk
  have e2 : (s.removeDimensions ks).shift = survivors ks s.shift :=
    removeElements_eq_survivors _ _ hk
  rw [LinScaling.toF_eq (by rw [e1]; exact survivors_length ks h1)
    (by rw [e2]; exact survivors_length ks h2), e1, e2,
    survivors_zipWith _ ks (by simp; omega), survivors_zipWith _ ks h2]
  intro d hd
  rw [e1] at hd
  unfold survivors at hd
  simp only [List.mem_map, List.mem_filter] at hd
  obtain ⟨⟨a, i⟩, ⟨hm, _⟩, rfl⟩ := hd
  have := List.mem_zipIdx_iff_getElem?.1 hm
  simp only [] at this
  exact h0 _ (List.mem_of_getElem? this)

/-- **C10**, the whole transform (no user transform): after removing (decreasing) indices, each
surviving coordinate is mapped as it was before. -/
theorem C10_genopheno_survive (g : GenoPheno) (x y : List ℝ) (ks : List ℕ)
    (hk : ks.Pairwise (· > ·)) (hc : g.custom = none)
    (hb : ∀ b, g.bound = .pwq b → ∃ lb ub plb pub, b = Pwq.ofBounds5 lb ub plb pub ∧
      lb.length = x.length ∧ ub.length = x.length)
    (hs : ∀ s, g.scale = .lin s → s.id = false ∧ x.length = s.scaling.length ∧
      x.length = s.shift.length ∧ ∀ d ∈ s.scaling, d ≠ 0)
    (h : g.pheno x = .ok y) :
    (g.removeDimensions ks).pheno (survivors ks x) = .ok (survivors ks y) := by
  obtain ⟨bound, custom, scale⟩ := g
  simp only at hc hb hs
  subst hc
  unfold GenoPheno.removeDimensions GenoPheno.pheno at *
  cases bound with
  | noBound =>
    cases scale with
    | noScaling =>
      simp only [GenoPheno.applyPheno] at h ⊢
      cases h; rfl
    | lin s =>
      obtain ⟨h1, h2, h3, h4⟩ := hs s rfl
      simp only [GenoPheno.applyPheno, h1, Bool.false_eq_true, if_false] at h ⊢
      exact C10_scaling_survive s x y ks hk h2 h3 h4 h
  | pwq b =>
    obtain ⟨lb, ub, plb, pub, rfl, h5, h6⟩ := hb b rfl
    cases scale with
    | noScaling =>
      simp only [GenoPheno.applyPheno] at h ⊢
      exact C10_bounds_survive lb ub plb pub x y ks hk h5 h6 h
    | lin s =>
      obtain ⟨h1, h2, h3, h4⟩ := hs s rfl
      have hid : (s.removeDimensions ks).id = false := h1
      simp only [GenoPheno.applyPheno, h1, Bool.false_eq_true, if_false, hid] at h ⊢
      obtain ⟨z, hz, h⟩ := Out.bind_eq_ok.1 h
      have hl : x.length = z.length := ((Pwq.toF_eq_ok_iff h5 h6).1 hz).1
      rw [C10_bounds_survive lb ub plb pub x z ks hk h5 h6 hz, Out.ok_bind]
      exact C10_scaling_survive s z y ks hk (by omega) (by omega) h4 h

/-- Witness: bounds `[0,1] x [0,2] x [0,3]` scaled to `[0,10]` each, a point that is transformed. -/
example : ∃ g y, GenoPheno.ofBoundsScaled none [0, 0, 0] [1, 2, 3] = .ok g ∧ g.custom = none ∧
    (∃ s, g.scale = .lin s ∧ s.id = false ∧ s.scaling.length = 3) ∧ g.pheno [5, 5, 5] = .ok y := by
  have hb : Spec.ProperBox [0, 0, 0] [1, 2, 3] :=
    .cons (by norm_num) (.cons (by norm_num) (.cons (by norm_num) .nil))
  have hw : List.Forall₂ (fun l u : ℝ => u - l ≤ dblMax) [0, 0, 0] [1, 2, 3] := by
    have := dblMax_ge
    exact .cons (by linarith) (.cons (by linarith) (.cons (by linarith) .nil))
  have he := LinScaling.ofBounds_eq hb hw
  have hc : (PwqCoord.mk' 0 10).toF 5 = .ok 5 := by
    have h1 : (PwqCoord.mk' 0 10).al = 1 / 20 := by simp only [PwqCoord.mk']; norm_num
    have h2 : (PwqCoord.mk' 0 10).au = 11 / 20 := by simp only [PwqCoord.mk']; norm_num
    have h3 : (PwqCoord.mk' 0 10).xlow = -51 / 10 := by
      have := h1; simp only [PwqCoord.mk'] at this ⊢; rw [this]; norm_num
    have h4 : (PwqCoord.mk' 0 10).xup = 161 / 10 := by
      have := h2; simp only [PwqCoord.mk'] at this ⊢; rw [this]; norm_num
    unfold PwqCoord.toF PwqCoord.shift PwqCoord.fold
    rw [h1, h2, h3, h4, PwqCoord.mk'_lb, PwqCoord.mk'_ub]
    norm_num [Out.pure_eq]
  have ht : (Pwq.ofBounds5 (List.replicate 3 0) (List.replicate 3 10) [0, 0, 0] [1, 2, 3]).toF [5, 5, 5]
      = .ok [5, 5, 5] := by
    rw [Pwq.toF_forall₂ (by rfl) (by rfl) (by rfl)]
    exact .cons hc (.cons hc (.cons hc .nil))
  refine ⟨_, ?_, by unfold GenoPheno.ofBoundsScaled; rw [he]; rfl, rfl, ⟨_, rfl, rfl, by simp⟩, ?_⟩
  rotate_left
  · simp only [GenoPheno.pheno, GenoPheno.applyPheno, List.length_cons, List.length_nil]
    rw [ht, Out.ok_bind, if_neg (by simp), LinScaling.toF_eq (by simp) (by simp)
      (LinScaling.ofBounds_ne_zero hb)]

end Libcmaes
