import Verif.Lemmas.GenoPheno
import Verif.Spec.Survivors

namespace Libcmaes

theorem zipIdx_filter_lt {α : Type} (v : List α) (n k : ℕ) (ks : List ℕ) (h : k < n) :
    (v.zipIdx n).filter (fun p => decide (p.2 ∉ k :: ks)) =
      (v.zipIdx n).filter (fun p => decide (p.2 ∉ ks)) := by
  apply List.filter_congr
  rintro ⟨a, i⟩ hp
  have hi : n ≤ i := by
    have := List.mem_zipIdx hp
    omega
  simp only [List.mem_cons, not_or, decide_eq_decide]
  constructor
  · exact fun h => h.2
  · exact fun h' => ⟨by omega, h'⟩

theorem survivors_gen_nil {α : Type} (v : List α) (n : ℕ) :
    ((v.zipIdx n).filter fun p => decide (p.2 ∉ ([] : List ℕ))).map Prod.fst = v := by
  have : ((v.zipIdx n).filter fun p => decide (p.2 ∉ ([] : List ℕ))) = v.zipIdx n := by
    rw [List.filter_eq_self]; simp
  rw [this]
  induction v generalizing n with
  | nil => rfl
  | cons a v ih => simp

/-- Removing one position. -/
theorem removeElement_cons_zero {α : Type} (a : α) (v : List α) : removeElement (a :: v) 0 = v := by
  simp [removeElement]

theorem removeElement_cons_succ {α : Type} (a : α) (v : List α) (k : ℕ) :
    removeElement (a :: v) (k + 1) = a :: removeElement v k := by
  unfold removeElement
  by_cases h : v.length ≤ k
  · rw [if_pos h, if_pos (by simpa using h)]
  · rw [if_neg h, if_neg (by simpa using h)]; simp

theorem removeElement_nil {α : Type} (k : ℕ) : removeElement ([] : List α) k = [] := by
  simp [removeElement]

theorem survivors_removeElement {α : Type} (v : List α) (n k : ℕ) (ks : List ℕ)
    (hk : ∀ j ∈ ks, j < n + k) :
    (((removeElement v k).zipIdx n).filter fun p => decide (p.2 ∉ ks)).map Prod.fst =
      ((v.zipIdx n).filter fun p => decide (p.2 ∉ (n + k) :: ks)).map Prod.fst := by
  induction v generalizing n k with
  | nil => simp [removeElement_nil]
  | cons a v ih =>
    cases k with
    | zero =>
      rw [removeElement_cons_zero]
      simp only [Nat.add_zero] at hk ⊢
      rw [List.zipIdx_cons, List.filter_cons]
      simp only [List.mem_cons, true_or, not_true_eq_false, decide_false]
      -- all indices of both lists are outside `ks`
      have key : ∀ (w : List α) (m : ℕ), n ≤ m →
          ((w.zipIdx m).filter fun p => decide (p.2 ∉ ks)).map Prod.fst = w := by
        intro w m hm
        have : ((w.zipIdx m).filter fun p => decide (p.2 ∉ ks)) = w.zipIdx m := by
          rw [List.filter_eq_self]
          rintro ⟨b, i⟩ hp
          have := List.mem_zipIdx hp
          simp only [decide_eq_true_eq]
          intro hi
          have := hk i hi
          omega
        rw [this]
        simp
      have key2 : ((v.zipIdx (n + 1)).filter fun p => decide (p.2 ∉ n :: ks)).map Prod.fst = v := by
        rw [zipIdx_filter_lt v (n + 1) n ks (by omega)]
        exact key v (n + 1) (by omega)
      rw [key v n le_rfl]
      simp only [List.mem_cons] at key2
      simpa using key2.symm
    | succ k =>
      rw [removeElement_cons_succ, List.zipIdx_cons, List.zipIdx_cons, List.filter_cons,
        List.filter_cons]
      have hn : (n ∉ (n + (k + 1)) :: ks) ↔ (n ∉ ks) := by
        simp
      have e : n + (k + 1) = (n + 1) + k := by omega
      have := ih (n + 1) k (by intro j hj; have := hk j hj; omega)
      by_cases hnk : n ∈ ks
      · simp only [hnk, not_true_eq_false, decide_false, Bool.false_eq_true, if_false,
          hn]
        rw [e]; exact this
      · have h1 : n ∉ (n + (k + 1)) :: ks := hn.2 hnk
        simp only [hnk, not_false_eq_true, decide_true, if_true, h1, List.map_cons]
        rw [e, this]

theorem removeElements_eq_survivors {α : Type} (v : List α) (ks : List ℕ) (h : ks.Pairwise (· > ·)) :
    removeElements v ks = survivors ks v := by
  induction ks generalizing v with
  | nil =>
    unfold removeElements survivors
    rw [List.foldl_nil]
    exact (survivors_gen_nil v 0).symm
  | cons k ks ih =>
    rw [List.pairwise_cons] at h
    show removeElements (removeElement v k) ks = _
    rw [ih _ h.2]
    unfold survivors
    have := survivors_removeElement v 0 k ks (by intro j hj; have := h.1 j hj; omega)
    simpa using this

theorem survivors_gen_zipWith {α β γ : Type} (f : α → β → γ) (ks : List ℕ) (a : List α) (b : List β)
    (n : ℕ) :
    (((List.zipWith f a b).zipIdx n).filter fun p => decide (p.2 ∉ ks)).map Prod.fst =
      List.zipWith f (((a.zipIdx n).filter fun p => decide (p.2 ∉ ks)).map Prod.fst)
        (((b.zipIdx n).filter fun p => decide (p.2 ∉ ks)).map Prod.fst) ∨
      a.length ≠ b.length := by
  induction a generalizing b n with
  | nil => cases b <;> simp
  | cons x a ih =>
    cases b with
    | nil => simp
    | cons y b =>
      rcases ih b (n + 1) with h | h
      · left
        by_cases hn : n ∈ ks
        · simpa [List.zipIdx_cons, List.filter_cons, hn] using h
        · simpa [List.zipIdx_cons, List.filter_cons, hn] using h
      · right; simpa using h

theorem survivors_zipWith {α β γ : Type} (f : α → β → γ) (ks : List ℕ) {a : List α} {b : List β}
    (h : a.length = b.length) :
    survivors ks (List.zipWith f a b) = List.zipWith f (survivors ks a) (survivors ks b) := by
  rcases survivors_gen_zipWith f ks a b 0 with h' | h'
  · exact h'
  · exact absurd h h'

theorem survivors_map {α β : Type} (f : α → β) (ks : List ℕ) (a : List α) :
    survivors ks (a.map f) = (survivors ks a).map f := by
  have := survivors_zipWith (fun x (_ : α) => f x) ks (a := a) (b := a) rfl
  have e : ∀ l : List α, List.zipWith (fun x (_ : α) => f x) l l = l.map f := by
    intro l; induction l with
    | nil => rfl
    | cons b l ih => simp
  rw [e, e] at this
  exact this

theorem survivors_forall₂ {α β : Type} {R : α → β → Prop} (ks : List ℕ) {a : List α} {b : List β}
    (h : List.Forall₂ R a b) : List.Forall₂ R (survivors ks a) (survivors ks b) := by
  have gen : ∀ {a : List α} {b : List β} (n : ℕ), List.Forall₂ R a b →
      List.Forall₂ R (((a.zipIdx n).filter fun p => decide (p.2 ∉ ks)).map Prod.fst)
        (((b.zipIdx n).filter fun p => decide (p.2 ∉ ks)).map Prod.fst) := by
    intro a b n h
    induction h generalizing n with
    | nil => simp
    | cons h1 _ ih =>
      by_cases hn : n ∈ ks
      · simpa [List.zipIdx_cons, List.filter_cons, hn] using ih (n + 1)
      · have := ih (n + 1)
        simp only [List.zipIdx_cons, List.filter_cons, hn, not_false_eq_true, decide_true, if_true,
          List.map_cons]
        exact .cons h1 this
  exact gen 0 h

theorem survivors_length {α β : Type} (ks : List ℕ) {a : List α} {b : List β}
    (h : a.length = b.length) : (survivors ks a).length = (survivors ks b).length := by
  have : List.Forall₂ (fun _ _ => True) a b := by
    rw [List.forall₂_iff_get]; exact ⟨h, fun _ _ _ => trivial⟩
  exact (survivors_forall₂ ks this).length_eq

theorem Pwq.toF_forall₂ {lb ub plb pub x y : List ℝ} (h1 : lb.length = x.length)
    (h2 : ub.length = x.length) (h3 : x.length = y.length) :
    (Pwq.ofBounds5 lb ub plb pub).toF x = .ok y ↔
      List.Forall₂ (fun (c : PwqCoord) (p : ℝ × ℝ) => c.toF p.1 = .ok p.2)
        (List.zipWith PwqCoord.mk' lb ub) (x.zip y) := by
  rw [Pwq.toF_eq_ok_iff h1 h2, List.forall₂_iff_get]
  constructor
  · rintro ⟨_, H⟩
    refine ⟨by simp; omega, ?_⟩
    intro i hi hi'
    simp only [List.length_zipWith, List.length_zip] at hi hi'
    simpa using H i _ _ _ _ (List.getElem?_eq_getElem (by omega))
      (List.getElem?_eq_getElem (by omega)) (List.getElem?_eq_getElem (by omega))
      (List.getElem?_eq_getElem (by omega))
  · rintro ⟨_, H⟩
    refine ⟨h3, ?_⟩
    intro i l u a b hl hu ha hb
    rw [List.getElem?_eq_some_iff] at hl hu ha hb
    obtain ⟨h4, rfl⟩ := hl
    obtain ⟨h5, rfl⟩ := hu
    obtain ⟨h6, rfl⟩ := ha
    obtain ⟨h7, rfl⟩ := hb
    simpa using H i (by simp; omega) (by simp; omega)

theorem Pwq.removeDimensions_ofBounds5 {lb ub plb pub : List ℝ} (ks : List ℕ)
    (hk : ks.Pairwise (· > ·)) (h : lb.length = ub.length) :
    (Pwq.ofBounds5 lb ub plb pub).removeDimensions ks =
      Pwq.ofBounds5 (survivors ks lb) (survivors ks ub) (survivors ks plb) (survivors ks pub) := by
  unfold Pwq.removeDimensions Pwq.ofBounds5
  simp only [removeElements_eq_survivors _ _ hk, survivors_map, survivors_zipWith _ ks h]

end Libcmaes
