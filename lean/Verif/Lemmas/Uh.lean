import Verif.Lemmas.Eval
import Verif.Lemmas.Sort
import Verif.Lemmas.Good

/-! # Uncertainty handling -/

namespace Libcmaes

open Spec

variable {n : ℕ}

/-- The number of re-evaluations is `floor` or `ceil` of `rlambda * lambda`, at least 1 and at most
`lambda`. -/
theorem lambdaReevOf_mem {p : Params n} {u : ℝ} (h0 : 0 ≤ u) (hr : 0 ≤ p.rlambda)
    (hr1 : p.rlambda ≤ 1) (hl : 1 ≤ p.lambda) :
    1 ≤ Strat.lambdaReevOf p u ∧ Strat.lambdaReevOf p u ≤ p.lambda ∧
      (Strat.lambdaReevOf p u = ⌊p.rlambda * p.lambda⌋₊ ∨ Strat.lambdaReevOf p u = ⌈p.rlambda * p.lambda⌉₊ ∨
        ⌊p.rlambda * p.lambda⌋₊ = 0 ∧ Strat.lambdaReevOf p u = 1) := by
  have hl' : (1 : ℝ) ≤ p.lambda := by exact_mod_cast hl
  set rl : ℝ := p.rlambda * p.lambda with hrl
  have h1 : 0 ≤ rl := by positivity
  have h2 : rl ≤ p.lambda := by nlinarith
  have hfl : (⌊rl⌋₊ : ℤ) = ⌊rl⌋ := by rw [Int.natCast_floor_eq_floor h1]
  have hfle : ⌊rl⌋₊ ≤ p.lambda := by
    have := Nat.floor_le h1
    exact_mod_cast this.trans h2
  unfold Strat.lambdaReevOf
  simp only
  rw [← hrl]
  by_cases hu : u < rl - ⌊rl⌋
  · rw [if_pos hu, if_neg (by have := Int.floor_nonneg.2 h1; omega), ← hfl]
    have h3 : ((⌊rl⌋₊ : ℤ) + 1).toNat = ⌊rl⌋₊ + 1 := by omega
    have hlt : (⌊rl⌋ : ℝ) < rl := by linarith
    have hlt' : (⌊rl⌋₊ : ℝ) < rl := by rw [← hfl] at hlt; exact_mod_cast hlt
    have hc : ⌈rl⌉₊ = ⌊rl⌋₊ + 1 := by
      apply le_antisymm
      · exact Nat.ceil_le_floor_add_one rl
      · have : (⌊rl⌋₊ : ℝ) < ⌈rl⌉₊ := lt_of_lt_of_le hlt' (Nat.le_ceil rl)
        exact_mod_cast this
    rw [h3]
    refine ⟨by omega, ?_, Or.inr (Or.inl hc.symm)⟩
    have : (⌊rl⌋₊ : ℝ) < p.lambda := lt_of_lt_of_le hlt' h2
    exact_mod_cast this
  · rw [if_neg hu, ← hfl]
    by_cases h0 : (⌊rl⌋₊ : ℤ) = 0
    · rw [if_pos h0]
      exact ⟨le_refl _, hl, Or.inr (Or.inr ⟨by exact_mod_cast h0, rfl⟩)⟩
    · rw [if_neg h0]
      have : ((⌊rl⌋₊ : ℤ)).toNat = ⌊rl⌋₊ := by omega
      rw [this]
      exact ⟨by omega, hfle, Or.inl rfl⟩

namespace Strat

/-- Points at which candidates are re-evaluated. -/
noncomputable def uhPoint (env : Env n) (s : Strat n) (cols phen : List (Vec n)) (r : ℕ) : Vec n :=
  colY cols phen r + (1e-7 * s.sol.sigma) • env.zuh (s.nzuh + r)

/-- `candidates_uh` after re-evaluation. -/
noncomputable def uhCand (env : Env n) (s : Strat n) (cols phen : List (Vec n)) (lreev r : ℕ) : RankedCand :=
  let v := (s.sol.cands.getD r Cand.blank).fvalue
  ⟨v, if r < lreev then negIf s.negate (env.f (s.calls.length + r) (s.uhPoint env cols phen r)) else v,
    r, 0, 0, 0⟩

theorem reevalFold_eq {env : Env n} {s : Strat n} {P : ℕ → Vec n} {lreev : ℕ} {uhcols : List (Vec n)}
    (hP : ∀ r < lreev, uhcols[r]? = some (P r)) (nf m : ℕ) (hm : m ≤ s.sol.cands.length) :
    (List.range m).foldlM (reevalOne env lreev uhcols) (s, [], nf) = .ok
      ({ s with calls := s.calls ++ (List.range (min m lreev)).map fun r =>
          (P r, env.f (s.calls.length + r) (P r)) },
        (List.range m).map (fun r =>
          let v := (s.sol.cands.getD r Cand.blank).fvalue
          ⟨v, if r < lreev then negIf s.negate (env.f (s.calls.length + r) (P r)) else v, r, 0, 0, 0⟩),
        nf + min m lreev) := by
  induction m with
  | zero => simp; rfl
  | succ m ih =>
    rw [List.range_succ, List.foldlM_append, ih (by omega)]
    show reevalOne env lreev uhcols _ m >>= (fun b => pure b) = _
    unfold reevalOne
    simp only
    have hc : at! s.sol.cands m = .ok (s.sol.cands.getD m Cand.blank) := by
      rw [at!_eq_ok, List.getElem?_eq_getElem (by omega), List.getD_eq_getElem?_getD,
        List.getElem?_eq_getElem (by omega)]
      rfl
    rw [hc, Out.ok_bind]
    by_cases hr : m < lreev
    · have hx : idx uhcols m = .ok (P m) := by rw [idx_eq_ok]; exact hP m hr
      rw [if_pos hr, hx]
      have e1 : min (m + 1) lreev = m + 1 := by omega
      have e2 : min m lreev = m := by omega
      rw [e1, e2]
      simp only [Out.ok_bind, callF, List.length_append, List.length_map, List.length_range,
        Out.pure_eq, List.range_succ, List.map_append, List.map_cons, List.map_nil, List.append_assoc, hr,
        if_true]
      rfl
    · rw [if_neg hr]
      have e1 : min (m + 1) lreev = min m lreev := by omega
      rw [e1]
      simp [List.map_append, hr, Out.pure_eq]

/-- Re-evaluation, in closed form. -/
theorem performUh_eq {env : Env n} {s : Strat n} {cols phen : List (Vec n)} (nf : ℕ)
    (h1 : cols.length ≤ s.sol.cands.length) (h2 : phen ≠ [] → phen.length = cols.length)
    (h3 : lambdaReevOf s.p (env.u s.nu) ≤ cols.length) :
    s.performUh env cols phen nf = .ok ({ s with
      nu := s.nu + 1, nzuh := s.nzuh + lambdaReevOf s.p (env.u s.nu)
      calls := s.calls ++ (List.range (lambdaReevOf s.p (env.u s.nu))).map fun r =>
          (s.uhPoint env cols phen r, env.f (s.calls.length + r) (s.uhPoint env cols phen r))
      sol := { s.sol with
        lambdaReev := lambdaReevOf s.p (env.u s.nu)
        candsUh := (List.range cols.length).map (s.uhCand env cols phen (lambdaReevOf s.p (env.u s.nu))) } },
      nf + lambdaReevOf s.p (env.u s.nu)) := by
  set l := lambdaReevOf s.p (env.u s.nu) with hl
  unfold performUh
  simp only
  rw [← hl]
  have hb : (if phen.isEmpty = true then cols else phen).length = cols.length := by
    split_ifs with hp
    · rfl
    · exact h2 (by simpa using hp)
  rw [if_neg (by rw [hb]; omega)]
  have hY : ∀ r < cols.length, (if phen.isEmpty = true then cols else phen)[r]? = some (colY cols phen r) := by
    intro r hr
    unfold colY colX
    split_ifs with hp
    · rw [List.getElem?_eq_getElem hr, List.getD_eq_getElem?_getD, List.getElem?_eq_getElem hr]; rfl
    · have hr' : r < phen.length := by rw [h2 (by simpa using hp)]; exact hr
      rw [List.getElem?_eq_getElem hr', List.getD_eq_getElem?_getD, List.getElem?_eq_getElem hr']; rfl
  rw [reevalFold_eq (P := s.uhPoint env cols phen) (m := cols.length)]
  · rw [Out.ok_bind, Nat.min_eq_right h3]
    rfl
  · intro r hr
    rw [List.getElem?_map, List.getElem?_zipIdx, List.getElem?_take_of_lt hr, hY r (by omega)]
    simp [uhPoint]
  · exact h1

end Strat

theorem unstableSort_ok {α : Type} {u : USort α} {lt : α → α → Prop} {l out : List α}
    (h : unstableSort u lt l = .ok out) : StrictWeakOn lt l ∧ out.Perm l ∧ out.Pairwise fun a b => ¬ lt b a := by
  unfold unstableSort at h
  split_ifs at h with hs
  injection h with h
  subst h
  exact ⟨hs, u.perm lt l hs, u.sorted lt l hs⟩

/-- With distinct comparable keys there is only one sorted arrangement. -/
theorem unstableSort_unique {α : Type} (u : USort α) (key : α → FVal) {l out : List α}
    (hn : ∀ a ∈ l, (key a).IsNum) (hp : out.Perm l)
    (hs : out.Pairwise fun a b => FVal.lt (key a) (key b)) :
    unstableSort u (fun a b => FVal.lt (key a) (key b)) l = .ok out := by
  have hsw : StrictWeakOn (fun a b => FVal.lt (key a) (key b)) l := (strictWeakOn_fval key l).2 (Or.inl hn)
  unfold unstableSort
  rw [if_pos hsw]
  congr 1
  refine List.Perm.eq_of_pairwise (le := fun a b => ¬ FVal.lt (key b) (key a)) ?_ (u.sorted _ _ hsw)
    (hs.imp fun h => FVal.lt_asymm h) ((u.perm _ _ hsw).trans hp.symm)
  intro a b ha hb h1 h2
  have ha' : a ∈ out := hp.mem_iff.2 ((u.perm _ _ hsw).mem_iff.1 ha)
  by_contra hne
  have hsym : Std.Symm fun a b => FVal.lt (key a) (key b) ∨ FVal.lt (key b) (key a) := ⟨fun a b h => h.symm⟩
  rcases (hs.imp (S := fun a b => FVal.lt (key a) (key b) ∨ FVal.lt (key b) (key a))
    fun h => Or.inl h).forall ha' hb hne with h | h
  · exact h2 h
  · exact h1 h

theorem uhComp_total {lambda : ℕ} (h : 1 ≤ lambda) (d : ℤ) : ∃ c, uhComp lambda d = .ok c := by
  unfold uhComp nthElement
  set l := (List.range (2 * lambda - 1)).map fun j : ℕ => |((j : ℝ) + 1) - d| with hl
  have hlen : l.length = 2 * lambda - 1 := by simp [hl]
  have hk : ⌊((2 * lambda - 1 : ℕ) : ℝ) * (0.2 * 0.5)⌋.toNat < 2 * lambda - 1 := by
    have h1 : (1 : ℝ) ≤ ((2 * lambda - 1 : ℕ) : ℝ) := by exact_mod_cast (by omega : 1 ≤ 2 * lambda - 1)
    have h2 : ⌊((2 * lambda - 1 : ℕ) : ℝ) * (0.2 * 0.5)⌋ < ((2 * lambda - 1 : ℕ) : ℤ) := by
      rw [Int.floor_lt]
      push_cast
      linarith
    have h3 : 0 ≤ ⌊((2 * lambda - 1 : ℕ) : ℝ) * (0.2 * 0.5)⌋ := Int.floor_nonneg.2 (by positivity)
    omega
  classical
  refine ⟨(l.mergeSort fun a b => decide (a ≤ b))[⌊((2 * lambda - 1 : ℕ) : ℝ) * (0.2 * 0.5)⌋.toNat]'
    (by rw [List.length_mergeSort, hlen]; exact hk), ?_⟩
  rw [idx_eq_ok]
  convert List.getElem?_eq_getElem _

theorem uhTerm_total {lambda : ℕ} (h : 1 ≤ lambda) (lreev : ℕ) (c : RankedCand) :
    ∃ t, uhTerm lambda lreev c = .ok t := by
  unfold uhTerm
  by_cases hc : lreev ≤ c.idx
  · rw [if_pos hc]; exact ⟨_, rfl⟩
  · obtain ⟨a, ha⟩ := uhComp_total h (c.r2 - (if c.r2 > c.r1 then 1 else 0))
    obtain ⟨b, hb⟩ := uhComp_total h (c.r1 - (if c.r1 > c.r2 then 1 else 0))
    rw [if_neg hc, ha, Out.ok_bind, hb]
    exact ⟨_, rfl⟩

end Libcmaes
