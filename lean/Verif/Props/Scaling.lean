import Verif.Lemmas.Scaling

/-!
# C05: linear scaling (include/libcmaes/scaling.h)
-/

namespace Libcmaes
open Spec

/-- Two vector transforms of dimension `n` are defined everywhere and inverse of each other. -/
def MutuallyInverse (n : ℕ) (toInternal toF : List ℝ → Out (List ℝ)) : Prop :=
  (∀ y, y.length = n → ∃ x, x.length = n ∧ toInternal y = .ok x ∧ toF x = .ok y) ∧
  (∀ x, x.length = n → ∃ y, y.length = n ∧ toF x = .ok y ∧ toInternal y = .ok x)

/-- **C05**, scaling vector: any user scaling vector without zero entry is an exact change of
units. -/
theorem C05_vectors_inverse (scaling shift : List ℝ) (hlen : shift.length = scaling.length)
    (h0 : ∀ d ∈ scaling, d ≠ 0) :
    MutuallyInverse scaling.length (LinScaling.ofVectors scaling shift).toInternal
      (LinScaling.ofVectors scaling shift).toF :=
  ⟨fun _ hy => LinScaling.toF_toInternal (s := LinScaling.ofVectors scaling shift) hlen h0 hy,
   fun _ hx => LinScaling.toInternal_toF (s := LinScaling.ofVectors scaling shift) hlen h0 hx⟩

example : ∀ d ∈ ([2, -0.5] : List ℝ), d ≠ 0 := by norm_num

/-- **C05**, a zero entry: the way back is not a real number (and the code does not check). -/
theorem C05_zero_scaling (s t a : ℝ) (h : s = 0) :
    (LinScaling.ofVectors [s] [t]).toF [a] = .error .notReal := by
  subst h
  simp [LinScaling.toF, LinScaling.ofVectors, cwise, divR]

/-- **C05**, scaling from bounds: the strategy is constructed, it is an exact change of units, sends
the lower bounds to 0 and the upper bounds to 10, and is strictly increasing in each coordinate.
The hypothesis `hw` says that the widths do not exceed the largest double. -/
theorem C05_bounds_scaling (lb ub : List ℝ) (hbox : ProperBox lb ub)
    (hw : List.Forall₂ (fun l u => u - l ≤ dblMax) lb ub) :
    ∃ s, LinScaling.ofBounds lb ub = .ok s ∧
      MutuallyInverse lb.length s.toInternal s.toF ∧
      s.toInternal lb = .ok (List.replicate lb.length 0) ∧
      s.toInternal ub = .ok (List.replicate lb.length 10) ∧
      (∀ y y' x x', List.Forall₂ (· < ·) y y' → y.length = lb.length →
        s.toInternal y = .ok x → s.toInternal y' = .ok x' → List.Forall₂ (· < ·) x x') := by
  have hlen : lb.length = ub.length := hbox.length_eq
  have hpos : ∀ (i : ℕ) (h1 : i < lb.length) (h2 : i < ub.length), 0 < ub[i] - lb[i] := by
    intro i h1 h2
    have := (List.forall₂_iff_get.1 hbox).2 i h1 h2
    simp only [List.get_eq_getElem] at this
    linarith
  refine ⟨_, LinScaling.ofBounds_eq hbox hw, ⟨?_, ?_⟩, ?_, ?_, ?_⟩
  · intro y hy
    have := LinScaling.toF_toInternal
      (s := ⟨List.zipWith (fun l u => 10 / (u - l)) lb ub,
       List.zipWith (fun l u => 10 - 10 / (u - l) * u) lb ub, false⟩) (by simp)
      (LinScaling.ofBounds_ne_zero hbox) (y := y) (by simp; omega)
    simpa [hlen] using this
  · intro x hx
    have := LinScaling.toInternal_toF
      (s := ⟨List.zipWith (fun l u => 10 / (u - l)) lb ub,
       List.zipWith (fun l u => 10 - 10 / (u - l) * u) lb ub, false⟩) (by simp)
      (LinScaling.ofBounds_ne_zero hbox) (x := x) (by simp; omega)
    simpa [hlen] using this
  · rw [LinScaling.toInternal_eq (by simp; omega) (by simp; omega)]
    congr 1
    apply List.ext_getElem
    · simp; omega
    · intro i h1 h2
      simp only [List.length_replicate] at h2
      have := hpos i (by omega) (by omega)
      simp
      field_simp
      ring
  · rw [LinScaling.toInternal_eq (by simp; omega) (by simp; omega)]
    congr 1
    apply List.ext_getElem
    · simp; omega
    · intro i h1 h2
      simp
      ring
  · intro y y' x x' hyy hy h1 h2
    have hy' : y.length = y'.length := hyy.length_eq
    rw [LinScaling.toInternal_eq (by simp; omega) (by simp; omega)] at h1 h2
    cases h1; cases h2
    rw [List.forall₂_iff_get]
    refine ⟨by simp; omega, ?_⟩
    intro i h1 h2
    simp only [List.length_zipWith] at h1 h2
    have hp := hpos i (by omega) (by omega)
    have hlt := (List.forall₂_iff_get.1 hyy).2 i (by omega) (by omega)
    simp only [List.get_eq_getElem] at hlt
    simp
    exact mul_lt_mul_of_pos_right hlt (div_pos (by norm_num) hp)

example : ProperBox [0, -3] [1, 5] ∧ List.Forall₂ (fun l u => u - l ≤ dblMax) [0, -3] [1, 5] := by
  refine ⟨.cons (by norm_num) (.cons (by norm_num) .nil), .cons ?_ (.cons ?_ .nil)⟩ <;>
    linarith [dblMax_ge]

end Libcmaes
