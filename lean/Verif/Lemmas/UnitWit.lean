import Verif.Lemmas.StopWit
import Verif.Props.Eval

/-!
# A search whose first generation gets the value 0 and whose later ones get 1
-/

namespace Libcmaes

open Spec

variable {n : ℕ}

/-- The state after `k` generations of such a search. -/
structure LowFirst (m : ℕ) (s0 : Strat n) (k : ℕ) (t : Strat n) : Prop where
  live : Live t
  recd : Recorded t
  par : t.p = s0.p
  negate : t.negate = false
  calls : t.calls.length = k * s0.p.lambda
  hist : ∃ bests ks, HistInv m t bests ks ∧ bests.length = k ∧
    ∀ i c, bests[i]? = some c → c.fvalue = if i = 0 then .num 0 else .num 1

theorem lowFirst_val {env : Env n} {l : ℕ} (hf : ∀ j y, env.f j y = if j < l then .num 0 else .num 1) (j : ℕ) (y : Vec n) :
    Val (env.f j y) := by
  rw [hf]
  have := dblMax_ge
  split_ifs
  · exact Or.inr ⟨0, by rw [abs_zero]; linarith, by simp⟩
  · exact Or.inr ⟨1, by rw [abs_one]; linarith, by simp⟩

theorem LowFirst.generation {env : Env n} {s0 t t' : Strat n} {m k : ℕ} (hm : 0 < m)
    (hf : ∀ j y, env.f j y = if j < s0.p.lambda then .num 0 else .num 1) (hg : s0.p.withGradient = false)
    (hel : s0.p.elitist = false ∧ s0.p.initialElitist = false ∧ s0.p.initialElitistOnRestart = false)
    (I : LowFirst m s0 k t) (h : t.generation env = .ok t') : LowFirst m s0 (k + 1) t' := by
  obtain ⟨hL, hR, _⟩ := genRun_live (.turn (.refl t) h) I.live I.recd (by rw [I.negate]; exact lowFirst_val hf)
  obtain ⟨tr, hrun⟩ := Strat.generation_run h
  obtain ⟨r1, r2, r3, r4, r5, r6, r7, r8, r9, r10⟩ := run_p hrun
  have hev := generation_evals I.live.uh (by rw [I.par]; exact hg) h
  obtain ⟨c, c1, c2, c3⟩ := C36_run env t t' [tr] hrun
  have hc : c.length = t.p.lambda := by omega
  refine ⟨hL, hR, by rw [r1, I.par], by rw [r8, I.negate], by rw [c1, List.length_append, I.calls, hc, I.par]; ring, ?_⟩
  obtain ⟨bests, ks, hi, b1, b2⟩ := I.hist
  unfold Strat.generation at h
  obtain ⟨⟨pop, s1⟩, ha, h⟩ := Out.bind_eq_ok.1 h
  obtain ⟨phen, hp, h⟩ := Out.bind_eq_ok.1 h
  obtain ⟨s2, he, h⟩ := Out.bind_eq_ok.1 h
  obtain ⟨s3, ht, h⟩ := Out.bind_eq_ok.1 h
  injection h with h
  subst h
  have hcl := Strat.ask_calls ha (by rw [I.par]; exact hg)
  obtain ⟨⟨es, ei, ue, cc, nz, x1, x2, p1, p2, e1⟩, hpl⟩ := Strat.ask_frame ha
  have hp1 : s1.p = t.p := by rw [e1]
  have hn1 : s1.negate = t.negate := by rw [e1]
  have hca : s1.sol.cands = t.sol.cands := by rw [e1]
  have hie : s1.elitismOn = false := by
    unfold Strat.elitismOn
    rw [hp1, I.par, hel.1, hel.2.1, hel.2.2]
    simp
  obtain ⟨c0, k0, hi', d1, d2, d3⟩ := (hi.ask ha).turn hm he ht
  refine ⟨bests ++ [c0], ks ++ [k0], hi', by rw [List.length_append, b1]; rfl, fun i d hd => ?_⟩
  by_cases hik : i < bests.length
  · rw [List.getElem?_append_left hik] at hd
    exact b2 i d hd
  · rw [List.getElem?_append_right (by omega)] at hd
    have hi0 : i - bests.length = 0 := by
      by_contra hx
      obtain ⟨q, hq⟩ := Nat.exists_eq_succ_of_ne_zero hx
      rw [hq] at hd
      cases hd
    rw [hi0] at hd
    injection hd with hd
    subst hd
    have hsort := d3 (by rw [hp1]; exact I.live.uh)
    have hmem := (stableSort_eq_ok hsort).2.perm.mem_iff.1 (List.mem_of_getElem? d1)
    rcases Strat.eval_values (by rw [hp1]; exact I.live.uh) (by rw [hpl, hca]; exact I.live.cands.le) he _ hmem with
      ⟨j, y, e, j1, j2⟩ | ⟨x, _⟩
    · rw [e, hn1, I.negate]
      show env.f j y = _
      rw [hf]
      have hik' : i = k := by omega
      rw [hcl, I.calls] at j1 j2
      rw [hpl, I.par] at j2
      subst hik'
      by_cases hz : i = 0
      · rw [if_pos hz, if_pos]
        rw [hz] at j2; omega
      · rw [if_neg hz, if_neg]
        have : s0.p.lambda ≤ i * s0.p.lambda := Nat.le_mul_of_pos_left _ (Nat.pos_of_ne_zero hz)
        omega
    · rw [hie] at x; cases x

theorem genRun_lowFirst {env : Env n} {s0 s t : Strat n} {m k : ℕ} (hm : 0 < m)
    (hf : ∀ j y, env.f j y = if j < s0.p.lambda then .num 0 else .num 1) (hg : s0.p.withGradient = false)
    (hel : s0.p.elitist = false ∧ s0.p.initialElitist = false ∧ s0.p.initialElitistOnRestart = false)
    (h0 : LowFirst m s0 0 s) (h : GenRun env s k t) : LowFirst m s0 k t := by
  induction h with
  | refl => exact h0
  | stop _ i ih =>
    have I := ih
    obtain ⟨bests, ks, hi, b1, b2⟩ := I.hist
    have hi' := hi.stop i
    obtain ⟨q, r, e⟩ := Strat.stop_frame i
    subst e
    exact ⟨I.live.withRun _ _, I.recd.withRun _ _, I.par, I.negate, I.calls, bests, ks, hi', b1, b2⟩
  | turn _ i ih => exact ih.generation hm hf hg hel i

end Libcmaes
