import Verif.Lemmas.Frame

/-! # What `eval` computes -/

namespace Libcmaes

variable {n : ℕ}

/-- Column `r` of a population. -/
def colX (cols : List (Vec n)) (r : ℕ) : Vec n := cols.getD r 0

/-- Point at which candidate `r` is evaluated. -/
def colY (cols phen : List (Vec n)) (r : ℕ) : Vec n := if phen.isEmpty then colX cols r else colX phen r

/-- A value as seen by the search. -/
noncomputable def negIf (b : Bool) (v : FVal) : FVal := if b then v.neg else v

/-- The calls made by a loop executed in the order `l`, the first being call number `k`. -/
def loopCalls (f : ℕ → Vec n → FVal) (Y : ℕ → Vec n) : ℕ → List ℕ → List (Vec n × FVal)
  | _, [] => []
  | k, r :: l => (Y r, f k (Y r)) :: loopCalls f Y (k + 1) l

theorem loopCalls_length (f : ℕ → Vec n → FVal) (Y : ℕ → Vec n) (k : ℕ) (l : List ℕ) :
    (loopCalls f Y k l).length = l.length := by
  induction l generalizing k with
  | nil => rfl
  | cons r l ih => simp [loopCalls, ih]

/-- The points called are those of the loop, in its order. -/
theorem loopCalls_fst (f : ℕ → Vec n → FVal) (Y : ℕ → Vec n) (k : ℕ) (l : List ℕ) :
    (loopCalls f Y k l).map Prod.fst = l.map Y := by
  induction l generalizing k with
  | nil => rfl
  | cons r l ih => simp [loopCalls, ih]

theorem loopCalls_getElem? (f : ℕ → Vec n → FVal) (Y : ℕ → Vec n) (k : ℕ) (l : List ℕ) (j : ℕ) :
    (loopCalls f Y k l)[j]? = l[j]?.map fun r => (Y r, f (k + j) (Y r)) := by
  induction l generalizing k j with
  | nil => rfl
  | cons r l ih =>
    cases j with
    | zero => simp [loopCalls]
    | succ j =>
      simp only [loopCalls, List.getElem?_cons_succ, ih]
      congr 1
      funext r
      rw [show k + 1 + j = k + (j + 1) by omega]

theorem loopCalls_mem {f : ℕ → Vec n → FVal} {Y : ℕ → Vec n} {k : ℕ} {l : List ℕ} {q : Vec n × FVal}
    (h : q ∈ loopCalls f Y k l) : ∃ r ∈ l, ∃ j, q = (Y r, f j (Y r)) := by
  induction l generalizing k with
  | nil => simp [loopCalls] at h
  | cons r l ih =>
    rcases List.mem_cons.1 h with h | h
    · exact ⟨r, by simp, k, h⟩
    · obtain ⟨r', h1, h2⟩ := ih h
      exact ⟨r', by simp [h1], h2⟩

namespace Strat

/-- The bounds without which the loop of `eval` throws or is undefined. -/
def EvalBounds (cols phen : List (Vec n)) (ncands r : ℕ) : Prop :=
  r < cols.length ∧ r < ncands ∧ (phen ≠ [] → r < phen.length)

theorem evalOne_eq {env : Env n} {cols phen : List (Vec n)} {s : Strat n} {r : ℕ}
    (hb : EvalBounds cols phen s.sol.cands.length r) :
    evalOne env cols phen s r = .ok { s with
        calls := s.calls ++ [(colY cols phen r, env.f s.calls.length (colY cols phen r))]
        sol := { s.sol with cands := (s.sol.cands.set r
          ⟨negIf s.negate (env.f s.calls.length (colY cols phen r)), colX cols r, r⟩) } } := by
  obtain ⟨h1, h2, h3⟩ := hb
  unfold evalOne
  have e1 : idx cols r = .ok (colX cols r) := by
    rw [idx_eq_ok, List.getElem?_eq_getElem h1]; simp [colX, List.getD, List.getElem?_eq_getElem h1]
  have e2 : at! s.sol.cands r = .ok s.sol.cands[r] := by
    rw [at!_eq_ok, List.getElem?_eq_getElem h2]
  have e3 : (if phen.isEmpty then Except.ok (colX cols r) else idx phen r : Out (Vec n)) =
      .ok (colY cols phen r) := by
    cases phen with
    | nil => simp [colY]
    | cons a l =>
      have h3 := h3 (by simp)
      simp only [colY, List.isEmpty_cons, Bool.false_eq_true, if_false]
      rw [idx_eq_ok, List.getElem?_eq_getElem h3]
      simp [colX, List.getD, List.getElem?_eq_getElem h3]
  rw [e1, Out.ok_bind, e2, Out.ok_bind, e3, Out.ok_bind]
  rfl

theorem evalOne_bounds {env : Env n} {cols phen : List (Vec n)} {s s' : Strat n} {r : ℕ}
    (h : evalOne env cols phen s r = .ok s') : EvalBounds cols phen s.sol.cands.length r := by
  obtain ⟨x, y, h1, h2, h3, _⟩ := evalOne_frame h
  refine ⟨(List.getElem?_eq_some_iff.1 h1).1, h2, fun hne => ?_⟩
  rcases h3 with h3 | h3
  · exact absurd h3.1 hne
  · exact (List.getElem?_eq_some_iff.1 h3.2).1

/-- The candidates after the loop, executed in the order `l`. -/
noncomputable def loopCands (f : ℕ → Vec n → FVal) (neg : Bool) (X Y : ℕ → Vec n) :
    ℕ → List ℕ → List (Cand n) → List (Cand n)
  | _, [], cs => cs
  | k, r :: l, cs => loopCands f neg X Y (k + 1) l (cs.set r ⟨negIf neg (f k (Y r)), X r, r⟩)

theorem loopCands_length (f : ℕ → Vec n → FVal) (neg : Bool) (X Y : ℕ → Vec n) (k : ℕ) (l : List ℕ)
    (cs : List (Cand n)) : (loopCands f neg X Y k l cs).length = cs.length := by
  induction l generalizing k cs with
  | nil => rfl
  | cons r l ih => simp [loopCands, ih]

theorem loopCands_getElem? (f : ℕ → Vec n → FVal) (neg : Bool) (X Y : ℕ → Vec n) (k : ℕ) (l : List ℕ)
    (hl : l.Nodup) (cs : List (Cand n)) (hb : ∀ r ∈ l, r < cs.length) (r : ℕ) :
    (loopCands f neg X Y k l cs)[r]? =
      if r ∈ l then some ⟨negIf neg (f (k + l.idxOf r) (Y r)), X r, r⟩ else cs[r]? := by
  induction l generalizing k cs with
  | nil => simp [loopCands]
  | cons a l ih =>
    have hl' := List.nodup_cons.1 hl
    rw [loopCands, ih _ hl'.2 _ (fun q hq => by simpa using hb q (by simp [hq]))]
    by_cases hra : r = a
    · subst hra
      rw [if_neg hl'.1, if_pos (by simp)]
      have := hb r (by simp)
      simp [this]
    · by_cases hrl : r ∈ l
      · rw [if_pos hrl, if_pos (by simp [hrl])]
        rw [List.idxOf_cons_ne _ (Ne.symm hra)]
        rw [show k + 1 + l.idxOf r = k + (l.idxOf r).succ by omega]
      · rw [if_neg hrl, if_neg (by simp [hra, hrl])]
        rw [List.getElem?_set_ne (Ne.symm hra)]

theorem evalFold_eq {env : Env n} {cols phen : List (Vec n)} (l : List ℕ) {s : Strat n}
    (hb : ∀ r ∈ l, EvalBounds cols phen s.sol.cands.length r) :
    l.foldlM (evalOne env cols phen) s = .ok { s with
      calls := s.calls ++ loopCalls env.f (colY cols phen) s.calls.length l
      sol := { s.sol with cands := (loopCands env.f s.negate (colX cols) (colY cols phen) s.calls.length l
        s.sol.cands) } } := by
  induction l generalizing s with
  | nil => simp [loopCalls, loopCands]; rfl
  | cons r l ih =>
    rw [List.foldlM_cons, evalOne_eq (hb r (by simp)), Out.ok_bind, ih]
    · simp [loopCalls, loopCands]
    · intro q hq
      simpa using hb q (by simp [hq])

theorem evalFold_bounds {env : Env n} {cols phen : List (Vec n)} (l : List ℕ) {s s' : Strat n}
    (h : l.foldlM (evalOne env cols phen) s = .ok s') :
    ∀ r ∈ l, EvalBounds cols phen s.sol.cands.length r := by
  induction l generalizing s with
  | nil => simp
  | cons a l ih =>
    rw [List.foldlM_cons] at h
    obtain ⟨s1, h1, h⟩ := Out.bind_eq_ok.1 h
    have hb := evalOne_bounds h1
    intro r hr
    rcases List.mem_cons.1 hr with rfl | hr
    · exact hb
    · have := ih h r hr
      rw [evalOne_eq hb] at h1
      injection h1 with h1
      rw [← h1] at this
      simpa using this

/-- The state after the loop of `eval`. -/
noncomputable def evaluated (env : Env n) (s : Strat n) (cols phen : List (Vec n)) : Strat n :=
  { s with
    calls := s.calls ++ loopCalls env.f (colY cols phen) s.calls.length (s.order env cols.length)
    sol := { s.sol with
      cands := loopCands env.f s.negate (colX cols) (colY cols phen) s.calls.length
        (s.order env cols.length) s.sol.cands } }

theorem order_nodup (env : Env n) (s : Strat n) (m : ℕ) : (s.order env m).Nodup :=
  (order_perm env s m).nodup_iff.2 List.nodup_range

theorem mem_order {env : Env n} {s : Strat n} {m r : ℕ} : r ∈ s.order env m ↔ r < m := by
  rw [(order_perm env s m).mem_iff, List.mem_range]

theorem eval_bounds {env : Env n} {s s' : Strat n} {cols phen : List (Vec n)}
    (h : s.eval env cols phen = .ok s') :
    cols.length ≤ s.sol.cands.length ∧ (phen ≠ [] → cols.length ≤ phen.length) := by
  unfold eval at h
  obtain ⟨s1, h1, h⟩ := Out.bind_eq_ok.1 h
  have hb := evalFold_bounds _ h1
  rcases Nat.eq_zero_or_pos cols.length with h0 | h0
  · rw [h0]; exact ⟨Nat.zero_le _, fun _ => Nat.zero_le _⟩
  · obtain ⟨_, b1, b2⟩ := hb (cols.length - 1) (mem_order.2 (by omega))
    exact ⟨by omega, fun hp => by have := b2 hp; omega⟩

theorem eval_loop {env : Env n} {s : Strat n} {cols phen : List (Vec n)}
    (h1 : cols.length ≤ s.sol.cands.length) (h2 : phen ≠ [] → cols.length ≤ phen.length) :
    (s.order env cols.length).foldlM (evalOne env cols phen) s = .ok (s.evaluated env cols phen) := by
  refine evalFold_eq _ fun r hr => ?_
  have := mem_order.1 hr
  exact ⟨this, by omega, fun hp => by have := h2 hp; omega⟩

/-- `eval` without uncertainty handling. -/
theorem eval_ok {env : Env n} {s s' : Strat n} {cols phen : List (Vec n)} (huh : s.p.uh = false)
    (h : s.eval env cols phen = .ok s') :
    ∃ s3, (s.evaluated env cols phen).reinject cols.length = .ok s3 ∧ s' = s3.updateFevals cols.length := by
  obtain ⟨h1, h2⟩ := eval_bounds h
  unfold eval at h
  rw [eval_loop h1 h2, Out.ok_bind, if_neg (by simp [evaluated, huh])] at h
  replace h : ((s.evaluated env cols phen).reinject cols.length >>= fun s3 =>
    pure (s3.updateFevals cols.length)) = .ok s' := h
  obtain ⟨s3, h3, h⟩ := Out.bind_eq_ok.1 h
  injection h with h
  exact ⟨s3, h3, h.symm⟩

theorem evaluated_cands {env : Env n} {s : Strat n} {cols phen : List (Vec n)}
    (h1 : cols.length ≤ s.sol.cands.length) (r : ℕ) :
    (s.evaluated env cols phen).sol.cands[r]? = if r < cols.length then
      some ⟨negIf s.negate (env.f (s.calls.length + (s.order env cols.length).idxOf r) (colY cols phen r)),
        colX cols r, r⟩ else s.sol.cands[r]? := by
  unfold evaluated
  simp only
  rw [loopCands_getElem? _ _ _ _ _ _ (order_nodup env s _) _ fun q hq => by
    have := mem_order.1 hq; omega]
  simp only [mem_order]

theorem evaluated_length (env : Env n) (s : Strat n) (cols phen : List (Vec n)) :
    (s.evaluated env cols phen).sol.cands.length = s.sol.cands.length := by
  simp [evaluated, loopCands_length]

/-- Values of the population after `eval` of a whole population: objective values or that of the
reinjected candidate. -/
theorem eval_values {env : Env n} {s s' : Strat n} {cols phen : List (Vec n)} (huh : s.p.uh = false)
    (hl : s.sol.cands.length ≤ cols.length) (h : s.eval env cols phen = .ok s') (c : Cand n)
    (hc : c ∈ s'.sol.cands) :
    (∃ j y, c.fvalue = negIf s.negate (env.f j y) ∧ s.calls.length ≤ j ∧
      j < s.calls.length + cols.length) ∨ s.elitismOn = true ∧ s.elitistRef = some c := by
  obtain ⟨h1, h2⟩ := eval_bounds h
  obtain ⟨s3, h3, e⟩ := eval_ok huh h
  have key : ∀ d ∈ (s.evaluated env cols phen).sol.cands, ∃ j y, d.fvalue = negIf s.negate (env.f j y) ∧
      s.calls.length ≤ j ∧ j < s.calls.length + cols.length := by
    intro d hd
    obtain ⟨r, hr, hd'⟩ := List.mem_iff_getElem.1 hd
    have h4 := evaluated_cands (env := env) (phen := phen) h1 r
    rw [evaluated_length] at hr
    have hr' : r < cols.length := by omega
    rw [if_pos hr', List.getElem?_eq_getElem (by rwa [evaluated_length]), hd'] at h4
    injection h4 with h4
    refine ⟨_, _, by rw [h4], by omega, ?_⟩
    have : (s.order env cols.length).idxOf r < (s.order env cols.length).length :=
      List.idxOf_lt_length_of_mem (mem_order.2 hr')
    rw [order_length] at this
    omega
  rcases reinject_frame h3 with h4 | ⟨c', h4, h5, h6⟩
  · left
    refine key c ?_
    rw [e, h4] at hc; exact hc
  · rw [e, h6] at hc
    rcases List.mem_or_eq_of_mem_set (show c ∈ List.set _ 1 c' from hc) with h | h
    · exact Or.inl (key c h)
    · subst h; exact Or.inr ⟨h5, h4⟩

end Strat

end Libcmaes
