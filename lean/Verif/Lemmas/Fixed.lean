import Verif.Model.Strategy
import Verif.Lemmas.Out
import Verif.Lemmas.Scaling

namespace Libcmaes

variable {n : ℕ}

theorem setFixed_nil (x : Vec n) : setFixed [] x = .ok x := rfl

theorem setFixed_cons (q : ℕ × ℝ) (fp : List (ℕ × ℝ)) (x : Vec n) :
    setFixed (q :: fp) x =
      if h : q.1 < n then setFixed fp (Function.update x ⟨q.1, h⟩ q.2) else .error .ub := by
  unfold setFixed
  rw [List.foldlM_cons]
  split <;> rfl

/-- `setFixed` succeeds exactly when all indices are in range. -/
theorem setFixed_ok_iff (fp : List (ℕ × ℝ)) (x : Vec n) :
    (∃ y, setFixed fp x = .ok y) ↔ ∀ q ∈ fp, q.1 < n := by
  induction fp generalizing x with
  | nil => simp [setFixed_nil]
  | cons q fp ih =>
    rw [setFixed_cons]
    by_cases h : q.1 < n
    · simp [h, ih]
    · simp [h]

theorem setFixed_of_not_mem {fp : List (ℕ × ℝ)} {x y : Vec n} (h : setFixed fp x = .ok y)
    (i : Fin n) (hi : ∀ q ∈ fp, q.1 ≠ i) : y i = x i := by
  induction fp generalizing x with
  | nil => rw [setFixed_nil] at h; cases h; rfl
  | cons q fp ih =>
    rw [setFixed_cons] at h
    by_cases hq : q.1 < n
    · rw [dif_pos hq] at h
      rw [ih h (fun q hq => hi q (List.mem_cons_of_mem _ hq))]
      rw [Function.update_of_ne]
      intro e
      exact hi q List.mem_cons_self (by rw [e])
    · rw [dif_neg hq] at h; cases h

theorem setFixed_of_mem {fp : List (ℕ × ℝ)} {x y : Vec n} (h : setFixed fp x = .ok y)
    (hd : (fp.map Prod.fst).Nodup) (i : Fin n) (v : ℝ) (hi : (i.val, v) ∈ fp) : y i = v := by
  induction fp generalizing x with
  | nil => cases hi
  | cons q fp ih =>
    rw [setFixed_cons] at h
    rw [List.map_cons, List.nodup_cons] at hd
    by_cases hq : q.1 < n
    · rw [dif_pos hq] at h
      rcases List.mem_cons.1 hi with rfl | hi
      · rw [setFixed_of_not_mem h i]
        · simp
        · intro r hr e
          exact hd.1 (List.mem_map.2 ⟨r, hr, e⟩)
      · exact ih h hd.2 hi
    · rw [dif_neg hq] at h; cases h

/-- `setFixed` does not look at the coordinates it overwrites. -/
theorem setFixed_apply {fp : List (ℕ × ℝ)} {x y x' y' : Vec n} (h : setFixed fp x = .ok y)
    (h' : setFixed fp x' = .ok y') (i : Fin n) (hi : x i = x' i) : y i = y' i := by
  induction fp generalizing x x' with
  | nil => rw [setFixed_nil] at h h'; cases h; cases h'; exact hi
  | cons q fp ih =>
    rw [setFixed_cons] at h h'
    by_cases hq : q.1 < n
    · rw [dif_pos hq] at h h'
      refine ih h h' ?_
      by_cases e : i = ⟨q.1, hq⟩
      · subst e; simp
      · rw [Function.update_of_ne e, Function.update_of_ne e, hi]
    · rw [dif_neg hq] at h; cases h

theorem toVec_ofFn (x : Vec n) : toVec n (List.ofFn x) = .ok x := by
  unfold toVec
  rw [dif_pos (List.length_ofFn)]
  congr 1
  funext i
  simp

theorem toVec_eq_ok {l : List ℝ} {x : Vec n} : toVec n l = .ok x ↔ l = List.ofFn x := by
  constructor
  · intro h
    unfold toVec at h
    by_cases hl : l.length = n
    · rw [dif_pos hl] at h
      injection h with h
      subst h
      apply List.ext_getElem
      · simp [hl]
      · intro i h1 h2; simp
    · rw [dif_neg hl] at h; cases h
  · rintro rfl
    exact toVec_ofFn x

end Libcmaes
