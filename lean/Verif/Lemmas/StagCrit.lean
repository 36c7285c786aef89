import Verif.Lemmas.StagWit

/-!
# The criterion in that search
-/

namespace Libcmaes

open Spec

variable {n : ℕ}

/-- The best value of generation `g`. -/
noncomputable def stagL (V : ℝ) (g : ℕ) : ℝ := if g < 20 then -10 else V

theorem stagG_zero (V : ℝ) (g : ℕ) : stagG V g 0 = .num ((stagL V g : ℝ) : EReal) := by
  unfold stagG stagL
  split_ifs
  · rfl
  · exact absurd rfl ‹¬ (0 : ℕ) = 0›
  · rfl

/-- The last 20 best values after `20 + j` generations. -/
noncomputable def stagB (V : ℝ) (j : ℕ) : List EReal := (List.range' j 20).map fun g => ((stagL V g : ℝ) : EReal)

theorem Stag.bf {V : ℝ} {m : ℕ} {s0 t : Strat n} {j : ℕ} (I : Stag V m s0 (20 + j) t) :
    t.sol.bfvalues = (stagB V j).map FVal.num := by
  obtain ⟨bests, ks, hi, hb⟩ := I.hist
  rw [hi.bf, hb]
  unfold lastN stagB
  rw [List.length_map, List.length_range, Nat.add_sub_cancel_left, ← List.map_drop, List.range_eq_range', List.drop_range', List.map_map,
    Nat.add_sub_cancel]
  rw [show 0 + j * 1 = j by omega]
  refine List.map_congr_left fun g _ => ?_
  exact stagG_zero V g

theorem Stag.meds {V : ℝ} {m : ℕ} {s0 t : Strat n} {j : ℕ} (I : Stag V m s0 (20 + j) t) (hj : j ≤ 100) :
    t.sol.medianFvalues.take 20 = (List.replicate 20 ((0 : ℝ) : EReal)).map FVal.num := by
  rw [I.med (by omega), ← List.map_take, List.take_range, Nat.min_eq_left (by omega), List.map_replicate, List.eq_replicate_iff]
  refine ⟨by simp, fun b hb => ?_⟩
  obtain ⟨g, hg, rfl⟩ := List.mem_map.1 hb
  unfold stagM
  rw [if_pos (List.mem_range.1 hg)]

theorem stagB_median {V : ℝ} (hV : -10 ≤ V) (j : ℕ) :
    IsMedian (stagB V j) (((stagL V (j + 9) : ℝ) + (stagL V (j + 10) : ℝ) : EReal) * ((1 / 2 : ℝ) : EReal)) := by
  refine ⟨stagB V j, List.Perm.refl _, ?_, _, _, ?_, ?_, rfl⟩
  · unfold stagB
    rw [List.pairwise_map]
    refine List.Pairwise.imp ?_ (List.pairwise_lt_range' (s := j) (n := 20) (step := 1))
    intro a b hab
    rw [EReal.coe_le_coe_iff]
    unfold stagL
    split_ifs
    · exact le_rfl
    · exact hV
    · omega
    · exact le_rfl
  · simp [stagB]
  · simp [stagB]

theorem zero_median : IsMedian (List.replicate 20 ((0 : ℝ) : EReal)) 0 :=
  ⟨_, List.Perm.refl _, List.pairwise_replicate.2 (Or.inr le_rfl), 0, 0, by simp, by simp, by simp⟩

/-- Up to 30 generations there is no stagnation if `V < 10`. -/
theorem Stag.not_stagnation {V : ℝ} {m : ℕ} {s0 t : Strat n} {k : ℕ} (I : Stag V m s0 k t) (hk : k ≤ 30) (h0 : -10 ≤ V) (hV : V < 10) :
    ¬ Stagnation t.sol := by
  rintro ⟨l1, l2, bs, ms, a, b, e1, e2, m1, m2, hab⟩
  have hk20 : 20 ≤ k := by
    obtain ⟨bests, ks, hi, hb⟩ := I.hist
    rw [hi.bf, hb, length_lastN, List.length_map, List.length_range] at l1
    omega
  obtain ⟨j, rfl⟩ : ∃ j, k = 20 + j := ⟨k - 20, by omega⟩
  have inj : Function.Injective (List.map FVal.num) := List.map_injective_iff.2 fun a b h => by injection h
  rw [I.bf] at e1
  rw [I.meds (by omega)] at e2
  have e1 := inj e1
  have e2 := inj e2
  subst e1 e2
  rw [IsMedian_unique m1 (stagB_median h0 j), IsMedian_unique m2 zero_median] at hab
  rw [← EReal.coe_add, ← EReal.coe_mul] at hab
  have hab : ((0 : ℝ) : EReal) ≤ _ := hab
  rw [EReal.coe_le_coe_iff] at hab
  have h9 : stagL V (j + 9) = -10 := by unfold stagL; rw [if_pos (by omega)]
  have h10 : stagL V (j + 10) ≤ max (-10) V := by
    unfold stagL
    split_ifs
    · exact le_max_left _ _
    · exact le_max_right _ _
  have : max (-10) V < 10 := max_lt (by norm_num) hV
  rw [h9] at hab
  linarith

/-- After 30 generations there is, if `V = 10`. -/
theorem Stag.stagnation {m : ℕ} {s0 t : Strat n} (I : Stag 10 m s0 30 t) : Stagnation t.sol := by
  have I' : Stag 10 m s0 (20 + 10) t := I
  refine ⟨?_, ?_, _, _, _, _, I'.bf, I'.meds (by omega), stagB_median (by norm_num) 10, zero_median, ?_⟩
  · rw [I'.bf]; simp [stagB]
  · rw [I.med (by omega)]; simp
  · rw [← EReal.coe_add, ← EReal.coe_mul]
    show ((0 : ℝ) : EReal) ≤ _
    rw [EReal.coe_le_coe_iff]
    unfold stagL
    norm_num

end Libcmaes
