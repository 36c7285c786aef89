import Verif.Model.Scaling
import Verif.Lemmas.Out
import Verif.Spec.Box
import Mathlib.Tactic.Linarith
import Mathlib.Tactic.Ring
import Mathlib.Tactic.FieldSimp
import Mathlib.Tactic.NormNum

namespace Libcmaes
open Spec

theorem dblMax_ge : (1024 : ℝ) ≤ dblMax := by
  have h : (2 : ℝ) ^ 10 ≤ 2 ^ 1023 := pow_le_pow_right₀ (by norm_num) (by norm_num)
  unfold dblMax
  have h2 : (1 : ℝ) ≤ 2 - 1 / 2 ^ 52 := by norm_num
  generalize (2 : ℝ) ^ 1023 = b at h ⊢
  norm_num at h
  generalize (2 : ℝ) - 1 / 2 ^ 52 = a at h2 ⊢
  nlinarith

theorem mapM_ok {α β : Type} (g : α → β) (l : List α) :
    l.mapM (fun a => (.ok (g a) : Out β)) = .ok (l.map g) := by
  rw [Out.mapM_eq_ok, List.forall₂_map_right_iff]
  exact List.forall₂_same.2 fun _ _ => rfl

theorem cwise_ok {α : Type} (g : α → α → α) {a b : List α} (h : a.length = b.length) :
    cwise (fun x y => .ok (g x y)) a b = .ok (List.zipWith g a b) := by
  unfold cwise
  rw [if_pos h, mapM_ok (fun p : α × α => g p.1 p.2), List.zip, List.map_zipWith]

theorem cwise_div {a b : List ℝ} (h : a.length = b.length) (h0 : ∀ d ∈ b, d ≠ 0) :
    cwise divR a b = .ok (List.zipWith (· / ·) a b) := by
  unfold cwise
  rw [if_pos h]
  have : ∀ p ∈ a.zip b, divR p.1 p.2 = .ok (p.1 / p.2) := by
    intro p hp
    have := (List.of_mem_zip hp).2
    unfold divR
    rw [if_neg (h0 _ this)]
  rw [Out.mapM_eq_ok]
  have e : List.zipWith (· / ·) a b = (a.zip b).map fun p => p.1 / p.2 := by
    rw [List.zip, List.map_zipWith]
  rw [e, List.forall₂_map_right_iff]
  exact List.forall₂_same.2 this

theorem LinScaling.toInternal_eq {s : LinScaling} {y : List ℝ} (h1 : y.length = s.scaling.length)
    (h2 : y.length = s.shift.length) :
    s.toInternal y = .ok (List.zipWith (· + ·) (List.zipWith (· * ·) y s.scaling) s.shift) := by
  unfold LinScaling.toInternal
  rw [cwise_ok (· * ·) h1, Out.ok_bind, cwise_ok (· + ·) (by simp; omega)]

theorem LinScaling.toF_eq {s : LinScaling} {x : List ℝ} (h1 : x.length = s.scaling.length)
    (h2 : x.length = s.shift.length) (h0 : ∀ d ∈ s.scaling, d ≠ 0) :
    s.toF x = .ok (List.zipWith (· / ·) (List.zipWith (· - ·) x s.shift) s.scaling) := by
  unfold LinScaling.toF
  rw [cwise_ok (· - ·) h2, Out.ok_bind, cwise_div (by simp; omega) h0]

theorem LinScaling.toF_toInternal {s : LinScaling} (hs : s.shift.length = s.scaling.length)
    (h0 : ∀ d ∈ s.scaling, d ≠ 0) {y : List ℝ} (hy : y.length = s.scaling.length) :
    ∃ x, x.length = s.scaling.length ∧ s.toInternal y = .ok x ∧ s.toF x = .ok y := by
  refine ⟨_, ?_, LinScaling.toInternal_eq hy (by omega), ?_⟩
  · simp; omega
  · rw [LinScaling.toF_eq (by simp; omega) (by simp; omega) h0]
    congr 1
    apply List.ext_getElem
    · simp; omega
    · intro i h1 h2
      have : s.scaling[i]'(by omega) ≠ 0 := h0 _ (List.getElem_mem _)
      simp
      field_simp

theorem LinScaling.toInternal_toF {s : LinScaling} (hs : s.shift.length = s.scaling.length)
    (h0 : ∀ d ∈ s.scaling, d ≠ 0) {x : List ℝ} (hx : x.length = s.scaling.length) :
    ∃ y, y.length = s.scaling.length ∧ s.toF x = .ok y ∧ s.toInternal y = .ok x := by
  refine ⟨_, ?_, LinScaling.toF_eq hx (by omega) h0, ?_⟩
  · simp; omega
  · rw [LinScaling.toInternal_eq (by simp; omega) (by simp; omega)]
    congr 1
    apply List.ext_getElem
    · simp; omega
    · intro i h1 h2
      have : s.scaling[i]'(by omega) ≠ 0 := h0 _ (List.getElem_mem _)
      simp
      field_simp
      ring

/-- The vectors computed from proper bounds whose widths are finite doubles. -/
theorem LinScaling.ofBounds_eq {lb ub : List ℝ} (hbox : ProperBox lb ub)
    (hw : List.Forall₂ (fun l u => u - l ≤ dblMax) lb ub) :
    LinScaling.ofBounds lb ub = .ok
      ⟨List.zipWith (fun l u => 10 / (u - l)) lb ub,
       List.zipWith (fun l u => 10 - 10 / (u - l) * u) lb ub, false⟩ := by
  have hlen : lb.length = ub.length := hbox.length_eq
  unfold LinScaling.ofBounds LinScaling.computeScaling
  have e1 : List.zipWith (fun u l => min (u - l) dblMax) ub lb
      = List.zipWith (fun l u => u - l) lb ub := by
    apply List.ext_getElem
    · simp; omega
    · intro i h1 h2
      simp only [List.length_zipWith] at h1 h2
      simp only [List.getElem_zipWith]
      exact min_eq_left ((List.forall₂_iff_get.1 hw).2 i (by omega) (by omega))
  rw [cwise_ok (fun u l => min (u - l) dblMax) hlen.symm, e1, Out.ok_bind]
  have e2 : (List.zipWith (fun l u => u - l) lb ub).mapM (fun d => divR (10 - 0) d)
      = .ok (List.zipWith (fun l u => 10 / (u - l)) lb ub) := by
    rw [Out.mapM_eq_ok, List.forall₂_iff_get]
    refine ⟨by simp, ?_⟩
    intro i h1 h2
    simp only [List.length_zipWith] at h1 h2
    have hlt := (List.forall₂_iff_get.1 hbox).2 i (by omega) (by omega)
    simp only [List.get_eq_getElem] at hlt ⊢
    simp only [List.getElem_zipWith, divR]
    rw [if_neg (sub_pos.2 hlt).ne']
    norm_num
  rw [e2, Out.ok_bind, cwise_ok (fun s u => 10 - s * u) (by simp; omega), Out.ok_bind]
  have e3 : List.zipWith (fun s u => 10 - s * u) (List.zipWith (fun l u => 10 / (u - l)) lb ub) ub
      = List.zipWith (fun l u => 10 - 10 / (u - l) * u) lb ub := by
    apply List.ext_getElem
    · simp
    · intro i h1 h2
      simp
  rw [e3]
  rfl

theorem LinScaling.ofBounds_ne_zero {lb ub : List ℝ} (hbox : ProperBox lb ub) :
    ∀ d ∈ List.zipWith (fun l u : ℝ => 10 / (u - l)) lb ub, d ≠ 0 := by
  intro d hd
  obtain ⟨i, hi, rfl⟩ := List.mem_iff_getElem.1 hd
  simp only [List.length_zipWith] at hi
  have hlt := (List.forall₂_iff_get.1 hbox).2 i (by omega) (by omega)
  simp only [List.get_eq_getElem] at hlt
  simp only [List.getElem_zipWith]
  exact (div_pos (by norm_num) (sub_pos.2 hlt)).ne'

end Libcmaes
