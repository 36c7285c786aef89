import Verif.Model.GenoPheno
import Verif.Lemmas.PwqVec
import Verif.Lemmas.Scaling
import Mathlib.Data.List.Nodup
import Mathlib.Data.List.Range

namespace Libcmaes
open Spec

/-! ## Positive scaling transports boxes -/

theorem LinScaling.inBox_of_toF {s : LinScaling} (hs : s.shift.length = s.scaling.length)
    (hpos : ∀ d ∈ s.scaling, 0 < d) {lb ub nl nu p y : List ℝ}
    (hlb : lb.length = s.scaling.length) (hub : ub.length = s.scaling.length)
    (hnl : s.toInternal lb = .ok nl) (hnu : s.toInternal ub = .ok nu) (hp : InBox nl nu p)
    (hy : s.toF p = .ok y) : InBox lb ub y := by
  rw [LinScaling.toInternal_eq hlb (by omega)] at hnl
  rw [LinScaling.toInternal_eq hub (by omega)] at hnu
  cases hnl; cases hnu
  have l1 := hp.1.length_eq
  simp only [List.length_zipWith] at l1
  rw [LinScaling.toF_eq (by omega) (by omega) (fun d hd => (hpos d hd).ne')] at hy
  cases hy
  have key : ∀ i (h1 : i < lb.length) (h2 : i < ub.length) (h3 : i < p.length)
      (h4 : i < s.scaling.length) (h5 : i < s.shift.length),
      lb[i] ≤ (p[i] - s.shift[i]) / s.scaling[i] ∧ (p[i] - s.shift[i]) / s.scaling[i] ≤ ub[i] := by
    intro i h1 h2 h3 h4 h5
    have hd := hpos _ (List.getElem_mem h4)
    have a := (List.forall₂_iff_get.1 hp.1).2 i (by simp; omega) h3
    have b := (List.forall₂_iff_get.1 hp.2).2 i h3 (by simp; omega)
    simp at a b
    constructor
    · rw [le_div_iff₀ hd]; linarith
    · rw [div_le_iff₀ hd]; linarith
  constructor
  · rw [List.forall₂_iff_get]
    refine ⟨by simp; omega, ?_⟩
    intro i h1 h2
    simp only [List.length_zipWith] at h2
    simpa using (key i h1 (by omega) (by omega) (by omega) (by omega)).1
  · rw [List.forall₂_iff_get]
    refine ⟨by simp; omega, ?_⟩
    intro i h1 h2
    simp only [List.length_zipWith] at h1
    simpa using (key i (by omega) h2 (by omega) (by omega) (by omega)).2

theorem LinScaling.inBox_toInternal {s : LinScaling} (hs : s.shift.length = s.scaling.length)
    (hpos : ∀ d ∈ s.scaling, 0 < d) {lb ub nl nu z y : List ℝ}
    (hlb : lb.length = s.scaling.length) (hub : ub.length = s.scaling.length)
    (hnl : s.toInternal lb = .ok nl) (hnu : s.toInternal ub = .ok nu) (hy : InBox lb ub y)
    (hz : s.toInternal y = .ok z) : InBox nl nu z := by
  have l1 := hy.1.length_eq
  rw [LinScaling.toInternal_eq hlb (by omega)] at hnl
  rw [LinScaling.toInternal_eq hub (by omega)] at hnu
  rw [LinScaling.toInternal_eq (by omega) (by omega)] at hz
  cases hnl; cases hnu; cases hz
  constructor
  · rw [List.forall₂_iff_get]
    refine ⟨by simp; omega, ?_⟩
    intro i h1 h2
    simp only [List.length_zipWith] at h1 h2
    have hd := hpos _ (List.getElem_mem (show i < s.scaling.length by omega))
    have a := (List.forall₂_iff_get.1 hy.1).2 i (by omega) (by omega)
    simp at a ⊢
    nlinarith
  · rw [List.forall₂_iff_get]
    refine ⟨by simp; omega, ?_⟩
    intro i h1 h2
    simp only [List.length_zipWith] at h1 h2
    have hd := hpos _ (List.getElem_mem (show i < s.scaling.length by omega))
    have a := (List.forall₂_iff_get.1 hy.2).2 i (by omega) (by omega)
    simp at a ⊢
    nlinarith

theorem LinScaling.properBox_toInternal {s : LinScaling}
    (hs : s.shift.length = s.scaling.length)
    (hpos : ∀ d ∈ s.scaling, 0 < d) {lb ub nl nu : List ℝ}
    (hlb : lb.length = s.scaling.length) (hbox : ProperBox lb ub)
    (hnl : s.toInternal lb = .ok nl) (hnu : s.toInternal ub = .ok nu) : ProperBox nl nu := by
  have l1 : lb.length = ub.length := hbox.length_eq
  rw [LinScaling.toInternal_eq hlb (by omega)] at hnl
  rw [LinScaling.toInternal_eq (by omega) (by omega)] at hnu
  cases hnl; cases hnu
  unfold ProperBox
  rw [List.forall₂_iff_get]
  refine ⟨by simp; omega, ?_⟩
  intro i h1 h2
  simp only [List.length_zipWith] at h1 h2
  have hd := hpos _ (List.getElem_mem (show i < s.scaling.length by omega))
  have a := (List.forall₂_iff_get.1 hbox).2 i (by omega) (by omega)
  simp at a ⊢
  nlinarith

theorem Pwq.toF_length {lb ub plb pub x y : List ℝ} (h1 : lb.length = x.length)
    (h2 : ub.length = x.length) (h : (Pwq.ofBounds5 lb ub plb pub).toF x = .ok y) :
    y.length = x.length := ((Pwq.toF_eq_ok_iff h1 h2).1 h).1.symm

theorem GenoPheno.applyPheno_length (g : GenoPheno) (x : List ℝ) :
    (g.applyPheno x).length = x.length := by
  unfold applyPheno
  cases g.custom with
  | none => rfl
  | some c => exact c.phenof_length x

theorem GenoPheno.applyGeno_length (g : GenoPheno) (x : List ℝ) :
    (g.applyGeno x).length = x.length := by
  unfold applyGeno
  cases g.custom with
  | none => rfl
  | some c => exact c.genof_length x

/-! ## Parallel loops -/

theorem Out.foldlM_cons {α β : Type} (f : β → α → Out β) (b : β) (a : α) (l : List α) :
    (a :: l).foldlM f b = f b a >>= fun b' => l.foldlM f b' := rfl

theorem GenoPheno.parCols_cons (f : List ℝ → Out (List ℝ)) (i : ℕ) (o : List ℕ)
    (m : List (List ℝ)) :
    parCols (i :: o) f m =
      (idx m i >>= fun c => f c >>= fun c' => parCols o f (m.set i c')) := by
  unfold parCols
  rw [Out.foldlM_cons]
  simp only [bind_assoc, Out.pure_eq, Out.ok_bind]

/-- A parallel loop over distinct columns, whatever the order: columns in `o` are replaced by their
image, the others are kept. -/
theorem GenoPheno.parCols_spec (f : List ℝ → Out (List ℝ)) (o : List ℕ) (m m' : List (List ℝ))
    (hnd : o.Nodup) (hlt : ∀ i ∈ o, i < m.length) :
    parCols o f m = .ok m' ↔
      m'.length = m.length ∧ ∀ (i : ℕ) (h : i < m.length) (h' : i < m'.length),
        (i ∈ o → f m[i] = .ok m'[i]) ∧ (i ∉ o → m'[i] = m[i]) := by
  induction o generalizing m with
  | nil =>
    unfold parCols
    rw [List.foldlM_nil, Out.pure_eq]
    constructor
    · intro h; cases h; simp
    · rintro ⟨h1, h2⟩
      congr 1
      apply List.ext_getElem h1.symm
      intro i hi hi'
      simpa using ((h2 i hi hi').2 (by simp)).symm
  | cons j o ih =>
    rw [parCols_cons]
    have hj : j < m.length := hlt j (by simp)
    have hjo : j ∉ o := (List.nodup_cons.1 hnd).1
    have e : idx m j = .ok m[j] := by rw [idx_eq_ok]; exact List.getElem?_eq_getElem hj
    rw [e, Out.ok_bind]
    constructor
    · intro h
      obtain ⟨c', hc, h⟩ := Out.bind_eq_ok.1 h
      rw [ih (m.set j c') (List.nodup_cons.1 hnd).2
        (fun i hi => by simpa using hlt i (List.mem_cons_of_mem _ hi))] at h
      obtain ⟨h1, h2⟩ := h
      refine ⟨by simpa using h1, ?_⟩
      intro i hi hi'
      obtain ⟨h3, h4⟩ := h2 i (by simpa using hi) hi'
      rw [List.getElem_set] at h3 h4
      by_cases hij : j = i
      · subst hij
        simp only [if_true] at h4
        exact ⟨fun _ => by rw [h4 hjo]; exact hc, fun hn => absurd List.mem_cons_self hn⟩
      · simp only [hij, if_false] at h3 h4
        constructor
        · intro hm
          rcases List.mem_cons.1 hm with hh | hh
          · exact absurd hh.symm hij
          · exact h3 hh
        · intro hm
          exact h4 fun hh => hm (List.mem_cons_of_mem _ hh)
    · rintro ⟨h1, h2⟩
      have hj' : j < m'.length := by omega
      rw [((h2 j hj hj').1 List.mem_cons_self), Out.ok_bind]
      rw [ih (m.set j m'[j]) (List.nodup_cons.1 hnd).2
        (fun i hi => by simpa using hlt i (List.mem_cons_of_mem _ hi))]
      refine ⟨by simpa using h1, ?_⟩
      intro i hi hi'
      have hi2 : i < m.length := by simpa using hi
      rw [List.getElem_set]
      obtain ⟨h3, h4⟩ := h2 i hi2 hi'
      by_cases hij : j = i
      · subst hij
        simp only [if_true]
        exact ⟨fun hh => absurd hh hjo, fun _ => trivial⟩
      · simp only [hij, if_false]
        refine ⟨fun hh => h3 (List.mem_cons_of_mem _ hh), fun hh => h4 ?_⟩
        intro hm
        rcases List.mem_cons.1 hm with h5 | h5
        · exact hij h5.symm
        · exact hh h5

/-- A complete schedule computes the column-wise map. -/
theorem GenoPheno.parCols_eq_mapM (f : List ℝ → Out (List ℝ)) {o : List ℕ}
    {m m' : List (List ℝ)} (ho : o.Perm (List.range m.length)) :
    parCols o f m = .ok m' ↔ m.mapM f = .ok m' := by
  rw [parCols_spec f o m m' (ho.nodup_iff.2 List.nodup_range)
    (fun i hi => by simpa using (ho.mem_iff.1 hi))]
  rw [Out.mapM_eq_ok, List.forall₂_iff_get]
  constructor
  · rintro ⟨h1, h2⟩
    exact ⟨h1.symm, fun i hi hi' => (h2 i hi hi').1 (ho.mem_iff.2 (by simpa using hi))⟩
  · rintro ⟨h1, h2⟩
    refine ⟨h1.symm, fun i hi hi' => ⟨fun _ => h2 i hi hi', fun hn => ?_⟩⟩
    exact absurd (ho.mem_iff.2 (by simpa using hi)) hn

theorem Out.mapM_bind_eq_ok {α β γ : Type} {f : α → Out β} {g : β → Out γ} {l : List α}
    {ys : List γ} :
    l.mapM (fun a => f a >>= g) = .ok ys ↔ ∃ bs, l.mapM f = .ok bs ∧ bs.mapM g = .ok ys := by
  induction l generalizing ys with
  | nil =>
    constructor
    · intro h; exact ⟨[], rfl, h⟩
    · rintro ⟨bs, h1, h2⟩
      rw [Out.mapM_nil] at h1; cases h1; exact h2
  | cons a l ih =>
    rw [Out.mapM_cons]
    constructor
    · intro h
      obtain ⟨c, hc, h⟩ := Out.bind_eq_ok.1 h
      obtain ⟨cs, hcs, h⟩ := Out.bind_eq_ok.1 h
      obtain ⟨b, hb, hc⟩ := Out.bind_eq_ok.1 hc
      obtain ⟨bs, hbs, hcs⟩ := ih.1 hcs
      refine ⟨b :: bs, ?_, ?_⟩
      · rw [Out.mapM_cons, hb, Out.ok_bind, hbs, Out.ok_bind]
      · rw [Out.mapM_cons, hc, Out.ok_bind, hcs, Out.ok_bind]; exact h
    · rintro ⟨bs, h1, h2⟩
      rw [Out.mapM_cons] at h1
      obtain ⟨b, hb, h1⟩ := Out.bind_eq_ok.1 h1
      obtain ⟨bs', hbs, h1⟩ := Out.bind_eq_ok.1 h1
      cases h1
      rw [Out.mapM_cons] at h2
      obtain ⟨c, hc, h2⟩ := Out.bind_eq_ok.1 h2
      obtain ⟨cs, hcs, h2⟩ := Out.bind_eq_ok.1 h2
      rw [hb, Out.ok_bind, hc, Out.ok_bind, ih.2 ⟨bs', hbs, hcs⟩, Out.ok_bind]
      exact h2

theorem Out.mapM_length {α β : Type} {f : α → Out β} {l : List α} {ys : List β}
    (h : l.mapM f = .ok ys) : l.length = ys.length := (Out.mapM_eq_ok.1 h).length_eq

theorem GenoPheno.phenoCandidates_spec (g : GenoPheno) {o : List ℕ} {m m' : List (List ℝ)}
    (ho : o.Perm (List.range m.length)) :
    g.phenoCandidates o m = .ok m' ↔ m' = m.map g.applyPheno := by
  unfold phenoCandidates applyPheno
  cases hc : g.custom with
  | none =>
    simp only [List.map_id']
    constructor
    · intro h; cases h; rfl
    · rintro rfl; rfl
  | some c =>
    simp only []
    rw [parCols_eq_mapM _ ho, mapM_ok]
    constructor
    · intro h; cases h; rfl
    · rintro rfl; rfl

theorem GenoPheno.genoCandidates_spec (g : GenoPheno) {o : List ℕ} {m m' : List (List ℝ)}
    (ho : o.Perm (List.range m.length)) :
    g.genoCandidates o m = .ok m' ↔ m' = m.map g.applyGeno := by
  unfold genoCandidates applyGeno
  cases hc : g.custom with
  | none =>
    simp only [List.map_id']
    constructor
    · intro h; cases h; rfl
    · rintro rfl; rfl
  | some c =>
    simp only []
    rw [parCols_eq_mapM _ ho, mapM_ok]
    constructor
    · intro h; cases h; rfl
    · rintro rfl; rfl

theorem Out.mapM_map {α β γ : Type} (g : α → β) (f : β → Out γ) (l : List α) :
    (l.map g).mapM f = l.mapM (fun a => f (g a)) := by
  induction l with
  | nil => rfl
  | cons a l ih => rw [List.map_cons, Out.mapM_cons, Out.mapM_cons, ih]

end Libcmaes
