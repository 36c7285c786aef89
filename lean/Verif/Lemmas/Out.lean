import Verif.Model.Basic
import Mathlib.Data.List.Forall2

namespace Libcmaes

@[simp] theorem Out.ok_bind {α β : Type} (a : α) (f : α → Out β) :
    ((Except.ok a : Out α) >>= f) = f a := rfl

@[simp] theorem Out.error_bind {α β : Type} (e : Err) (f : α → Out β) :
    ((Except.error e : Out α) >>= f) = .error e := rfl

theorem Out.pure_eq {α : Type} (a : α) : (pure a : Out α) = .ok a := rfl

theorem Out.bind_eq_ok {α β : Type} {x : Out α} {f : α → Out β} {b : β} :
    (x >>= f) = .ok b ↔ ∃ a, x = .ok a ∧ f a = .ok b := by
  cases x with
  | error e => simp
  | ok a => simp

theorem Out.mapM_nil {α β : Type} (f : α → Out β) : ([] : List α).mapM f = .ok [] := rfl

theorem Out.mapM_cons {α β : Type} (f : α → Out β) (a : α) (l : List α) :
    (a :: l).mapM f = (f a >>= fun b => l.mapM f >>= fun bs => .ok (b :: bs)) := by
  rw [List.mapM_cons]; rfl

/-- `mapM` succeeds exactly when each element succeeds, with the results in order. -/
theorem Out.mapM_eq_ok {α β : Type} {f : α → Out β} {l : List α} {ys : List β} :
    l.mapM f = .ok ys ↔ List.Forall₂ (fun a b => f a = .ok b) l ys := by
  induction l generalizing ys with
  | nil =>
    rw [Out.mapM_nil, List.forall₂_nil_left_iff]
    constructor
    · intro h; cases h; rfl
    · rintro rfl; rfl
  | cons a l ih =>
    rw [Out.mapM_cons, List.forall₂_cons_left_iff]
    constructor
    · intro h
      obtain ⟨b, hb, h⟩ := Out.bind_eq_ok.1 h
      obtain ⟨bs, hbs, h⟩ := Out.bind_eq_ok.1 h
      cases h
      exact ⟨b, bs, hb, ih.1 hbs, rfl⟩
    · rintro ⟨b, bs, hb, hbs, rfl⟩
      rw [hb, Out.ok_bind, ih.2 hbs, Out.ok_bind]

/-- Each result of `mapM` comes from an element. -/
theorem Out.mapM_mem {α β : Type} {f : α → Out β} {l : List α} {ys : List β} (h : l.mapM f = .ok ys)
    {y : β} (hy : y ∈ ys) : ∃ a ∈ l, f a = .ok y := by
  have := Out.mapM_eq_ok.1 h
  clear h
  induction this with
  | nil => cases hy
  | cons h1 _ ih =>
    rcases List.mem_cons.1 hy with e | hy
    · subst e; exact ⟨_, List.mem_cons_self, h1⟩
    · obtain ⟨a, ha, e⟩ := ih hy
      exact ⟨a, List.mem_cons_of_mem _ ha, e⟩

/-- If `mapM` fails, some element failed with that error. -/
theorem Out.mapM_eq_error {α β : Type} {f : α → Out β} {l : List α} {e : Err} :
    l.mapM f = .error e → ∃ a ∈ l, f a = .error e := by
  induction l with
  | nil => intro h; cases h
  | cons a l ih =>
    rw [Out.mapM_cons]
    intro h
    cases ha : f a with
    | error e' =>
      rw [ha, Out.error_bind] at h
      cases h
      exact ⟨a, List.mem_cons_self, ha⟩
    | ok b =>
      rw [ha, Out.ok_bind] at h
      cases hl : l.mapM f with
      | error e' =>
        rw [hl, Out.error_bind] at h
        cases h
        obtain ⟨a', h1, h2⟩ := ih hl
        exact ⟨a', List.mem_cons_of_mem _ h1, h2⟩
      | ok bs =>
        rw [hl, Out.ok_bind] at h
        cases h

/-- Pointwise reading of `Forall₂` over an indexed list. -/
theorem forall₂_zipIdx {α β : Type} {R : α → ℕ → β → Prop} {l : List α} {ys : List β} :
    List.Forall₂ (fun a b => R a.1 a.2 b) l.zipIdx ys ↔
      l.length = ys.length ∧ ∀ i a b, l[i]? = some a → ys[i]? = some b → R a i b := by
  have gen : ∀ (l : List α) (k : ℕ) (ys : List β),
      List.Forall₂ (fun a b => R a.1 a.2 b) (l.zipIdx k) ys ↔
        l.length = ys.length ∧ ∀ i a b, l[i]? = some a → ys[i]? = some b → R a (k + i) b := by
    intro l
    induction l with
    | nil =>
      intro k ys
      cases ys with
      | nil => simp
      | cons y ys => simp
    | cons a l ih =>
      intro k ys
      cases ys with
      | nil => simp
      | cons y ys =>
        rw [List.zipIdx_cons, List.forall₂_cons, ih]
        constructor
        · rintro ⟨h1, h2, h3⟩
          refine ⟨by simp [h2], ?_⟩
          intro i a' b' ha hb
          cases i with
          | zero => simp at ha hb; subst ha; subst hb; simpa using h1
          | succ i =>
            simp at ha hb
            have := h3 i a' b' ha hb
            rwa [Nat.add_assoc, Nat.add_comm 1] at this
        · rintro ⟨h1, h2⟩
          refine ⟨by simpa using h2 0 a y rfl rfl, by simpa using h1, ?_⟩
          intro i a' b' ha hb
          have := h2 (i + 1) a' b' (by simpa using ha) (by simpa using hb)
          rwa [Nat.add_assoc, Nat.add_comm 1]
  simpa using gen l 0 ys

theorem idx_eq_ok {α : Type} {l : List α} {i : ℕ} {a : α} : idx l i = .ok a ↔ l[i]? = some a := by
  unfold idx; cases h : l[i]? <;> simp

theorem at!_eq_ok {α : Type} {l : List α} {i : ℕ} {a : α} : at! l i = .ok a ↔ l[i]? = some a := by
  unfold at!; cases h : l[i]? <;> simp

end Libcmaes
