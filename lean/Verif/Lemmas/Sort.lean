import Verif.Model.Solutions
import Verif.Lemmas.Out

namespace Libcmaes

namespace FVal

theorem lt_irrefl (a : FVal) : ¬ lt a a := by cases a <;> simp [lt]

theorem lt_trans {a b c : FVal} (h : lt a b) (h' : lt b c) : lt a c := by
  cases a <;> cases b <;> cases c <;> simp_all [lt]
  exact _root_.lt_trans h h'

theorem lt_asymm {a b : FVal} (h : lt a b) : ¬ lt b a := fun h' => lt_irrefl _ (lt_trans h h')

theorem IsNum_of_lt {a b : FVal} (h : lt a b) : a.IsNum ∧ b.IsNum := by
  cases a <;> cases b <;> simp_all [lt, IsNum]

theorem not_lt_nan (a : FVal) : ¬ lt a nan := by cases a <;> simp [lt]

theorem nan_not_lt (a : FVal) : ¬ lt nan a := by simp [lt]

theorem le_iff_not_lt {a b : FVal} (ha : a.IsNum) (hb : b.IsNum) : le a b ↔ ¬ lt b a := by
  cases a <;> cases b <;> simp_all [le, lt, IsNum]

theorem not_isNum {a : FVal} : ¬ a.IsNum ↔ a = nan := by cases a <;> simp [IsNum]

theorem not_lt_trans {a b c : FVal} (hb : b.IsNum) (h : ¬ lt b a) (h' : ¬ lt c b) :
    ¬ lt c a := by
  cases a <;> cases b <;> cases c <;> simp_all [lt, IsNum]
  exact le_trans h h'

theorem incomp_trans {a b c : FVal} (hb : b.IsNum)
    (h1 : ¬ lt a b) (h2 : ¬ lt b a) (h3 : ¬ lt b c) (h4 : ¬ lt c b) : ¬ lt a c ∧ ¬ lt c a :=
  ⟨not_lt_trans hb h3 h1, not_lt_trans hb h2 h4⟩

end FVal

section
variable {α β : Type}

theorem StrictWeakOn.map {ltα : α → α → Prop} {ltβ : β → β → Prop} {f : α → β} {l : List α}
    (hf : ∀ a ∈ l, ∀ b ∈ l, ltα a b ↔ ltβ (f a) (f b)) :
    StrictWeakOn ltβ (l.map f) ↔ StrictWeakOn ltα l := by
  unfold StrictWeakOn
  simp only [List.mem_map, forall_exists_index, and_imp, forall_apply_eq_imp_iff₂]
  constructor
  · rintro ⟨h1, h2, h3⟩
    refine ⟨fun a ha h => h1 a ha ((hf a ha a ha).1 h), fun a ha b hb c hc h h' => ?_,
      fun a ha b hb c hc g1 g2 g3 g4 => ?_⟩
    · exact (hf a ha c hc).2 (h2 a ha b hb c hc ((hf a ha b hb).1 h) ((hf b hb c hc).1 h'))
    · have := h3 a ha b hb c hc (fun h => g1 ((hf a ha b hb).2 h)) (fun h => g2 ((hf b hb a ha).2 h))
        (fun h => g3 ((hf b hb c hc).2 h)) (fun h => g4 ((hf c hc b hb).2 h))
      exact ⟨fun h => this.1 ((hf a ha c hc).1 h), fun h => this.2 ((hf c hc a ha).1 h)⟩
  · rintro ⟨h1, h2, h3⟩
    refine ⟨fun a ha h => h1 a ha ((hf a ha a ha).2 h), fun a ha b hb c hc h h' => ?_,
      fun a ha b hb c hc g1 g2 g3 g4 => ?_⟩
    · exact (hf a ha c hc).1 (h2 a ha b hb c hc ((hf a ha b hb).2 h) ((hf b hb c hc).2 h'))
    · have := h3 a ha b hb c hc (fun h => g1 ((hf a ha b hb).1 h)) (fun h => g2 ((hf b hb a ha).1 h))
        (fun h => g3 ((hf b hb c hc).1 h)) (fun h => g4 ((hf c hc b hb).1 h))
      exact ⟨fun h => this.1 ((hf a ha c hc).2 h), fun h => this.2 ((hf c hc a ha).2 h)⟩

open Classical in
/-- `stableSort` commutes with a map that reflects the comparison. -/
theorem stableSort_map {ltα : α → α → Prop} {ltβ : β → β → Prop} {f : α → β} {l : List α}
    (hf : ∀ a ∈ l, ∀ b ∈ l, ltα a b ↔ ltβ (f a) (f b)) :
    stableSort ltβ (l.map f) = (stableSort ltα l).map (List.map f) := by
  unfold stableSort
  by_cases h : StrictWeakOn ltα l
  · rw [if_pos h, if_pos ((StrictWeakOn.map hf).2 h)]
    show _ = Except.ok _
    rw [List.map_mergeSort]
    intro a ha b hb
    rw [decide_eq_decide]
    exact not_congr (hf b hb a ha)
  · rw [if_neg h, if_neg (fun h' => h ((StrictWeakOn.map hf).1 h'))]
    rfl

/-- What a stable sort guarantees. -/
structure Sorts (lt : α → α → Prop) (l out : List α) : Prop where
  perm : out.Perm l
  sorted : out.Pairwise fun a b => ¬ lt b a
  stable : ∀ P : α → Bool, (∀ a ∈ l, ∀ b ∈ l, P a → P b → ¬ lt a b) → out.filter P = l.filter P

theorem StrictWeakOn.not_lt_trans {lt : α → α → Prop} {l : List α} (h : StrictWeakOn lt l)
    {a b c : α} (ha : a ∈ l) (hb : b ∈ l) (hc : c ∈ l) (h1 : ¬ lt b a) (h2 : ¬ lt c b) : ¬ lt c a := by
  obtain ⟨hi, ht, he⟩ := h
  intro h3
  by_cases h4 : lt a b
  · exact h2 (ht c hc a ha b hb h3 h4)
  · by_cases h5 : lt b c
    · exact h1 (ht b hb c hc a ha h5 h3)
    · exact (he a ha b hb c hc h4 h1 h5 h2).2 h3

open Classical in
theorem stableSort_sorts {lt : α → α → Prop} {l : List α} (h : StrictWeakOn lt l) :
    ∃ out, stableSort lt l = .ok out ∧ Sorts lt l out := by
  unfold stableSort
  rw [if_pos h]
  refine ⟨_, rfl, ?_⟩
  let le' : {a // a ∈ l} → {a // a ∈ l} → Bool := fun a b => decide (¬ lt b.1 a.1)
  have hmap : (l.attach.mergeSort le').map Subtype.val = l.mergeSort fun a b => decide (¬ lt b a) := by
    rw [List.map_mergeSort (s := fun a b => decide (¬ lt b a)) (fun a _ b _ => rfl)]
    rw [List.attach_map_subtype_val]
  have htr : ∀ a b c, le' a b → le' b c → le' a c := by
    intro a b c
    simp only [le', decide_eq_true_eq]
    exact h.not_lt_trans a.2 b.2 c.2
  have hto : ∀ a b, (le' a b || le' b a) = true := by
    intro a b
    simp only [le', Bool.or_eq_true, decide_eq_true_eq]
    by_contra hh
    push Not at hh
    exact h.1 a.1 a.2 (h.2.1 _ a.2 _ b.2 _ a.2 hh.2 hh.1)
  refine ⟨List.mergeSort_perm _ _, ?_, ?_⟩
  · rw [← hmap, List.pairwise_map]
    refine (List.pairwise_mergeSort htr hto l.attach).imp ?_
    intro a b hab
    simpa [le'] using hab
  · intro P hP
    have hperm := List.mergeSort_perm l fun a b => decide (¬ lt b a)
    have hsub : (l.attach.filter fun a => P a.1).Sublist (l.attach.mergeSort le') := by
      apply List.sublist_mergeSort htr hto _ List.filter_sublist
      apply List.Pairwise.imp_of_mem (R := fun _ _ => True) _ (List.pairwise_of_forall fun _ _ => trivial)
      intro a b ha hb _
      rw [List.mem_filter] at ha hb
      simp only [le', decide_eq_true_eq]
      exact hP _ b.2 _ a.2 hb.2 ha.2
    have hsub2 : (l.filter P).Sublist (l.mergeSort fun a b => decide (¬ lt b a)) := by
      have := hsub.map Subtype.val
      rw [hmap] at this
      have e : (l.attach.filter fun a => P a.1).map Subtype.val = l.filter P := by
        have := List.filter_map (f := Subtype.val) (p := P) (l := l.attach)
        rw [List.attach_map_subtype_val] at this
        rw [this]; rfl
      rwa [e] at this
    have h3 := hsub2.filter P
    rw [List.filter_filter] at h3
    simp only [Bool.and_self] at h3
    exact (h3.eq_of_length (hperm.filter P).length_eq.symm).symm

open Classical in
theorem stableSort_eq_ok {lt : α → α → Prop} {l out : List α} (h : stableSort lt l = .ok out) :
    StrictWeakOn lt l ∧ Sorts lt l out := by
  have hs : StrictWeakOn lt l := by
    by_contra hh
    unfold stableSort at h
    rw [if_neg hh] at h
    cases h
  obtain ⟨o, h1, h2⟩ := stableSort_sorts hs
  rw [h] at h1
  cases h1
  exact ⟨hs, h2⟩

end

/-- A comparison of objective values is a strict weak order on a list exactly when the list has no
NaN or no two comparable elements. -/
theorem strictWeakOn_fval {α : Type} (key : α → FVal) (l : List α) :
    StrictWeakOn (fun a b => FVal.lt (key a) (key b)) l ↔
      (∀ a ∈ l, (key a).IsNum) ∨ (∀ a ∈ l, ∀ b ∈ l, ¬ FVal.lt (key a) (key b)) := by
  constructor
  · rintro ⟨_, _, h⟩
    by_cases hn : ∀ a ∈ l, (key a).IsNum
    · exact Or.inl hn
    · right
      push Not at hn
      obtain ⟨c, hc, hcn⟩ := hn
      rw [FVal.not_isNum] at hcn
      intro a ha b hb
      refine (h a ha c hc b hb ?_ ?_ ?_ ?_).1 <;> beta_reduce <;> rw [hcn] <;>
        first | exact FVal.not_lt_nan _ | exact FVal.nan_not_lt _
  · rintro (h | h)
    · exact ⟨fun a _ => FVal.lt_irrefl _, fun a _ b _ c _ => FVal.lt_trans,
        fun a _ b hb c _ h1 h2 h3 h4 => FVal.incomp_trans (h b hb) h1 h2 h3 h4⟩
    · exact ⟨fun a _ => FVal.lt_irrefl _, fun a _ b _ c _ => FVal.lt_trans,
        fun a ha b _ c hc _ _ _ _ => ⟨h a ha c hc, h c hc a ha⟩⟩

end Libcmaes
