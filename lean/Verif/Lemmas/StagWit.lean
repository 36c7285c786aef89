import Verif.Lemmas.UnitWit
import Verif.Lemmas.LazyActive
import Verif.Lemmas.Shift

/-!
# A search that stagnates, or not, according to the mean of two values

In each of the first 20 generations the first call returns -10 and the others 0; all later calls return `V`.
-/

namespace Libcmaes

open Spec

variable {n : ℕ}

/-- Value of candidate `i` of generation `k`. -/
noncomputable def stagG (V : ℝ) (k i : ℕ) : FVal :=
  if k < 20 then (if i = 0 then .num ((-10 : ℝ) : EReal) else .num ((0 : ℝ) : EReal)) else .num (V : EReal)

/-- Value of call `j`, the population being `l`. -/
noncomputable def stagF (l : ℕ) (V : ℝ) (j : ℕ) : FVal := stagG V (j / l) (j % l)

theorem stagF_at {l : ℕ} {V : ℝ} {k i : ℕ} (hi : i < l) : stagF l V (k * l + i) = stagG V k i := by
  unfold stagF
  rw [Nat.add_comm, Nat.add_mul_div_right _ _ (by omega), Nat.div_eq_of_lt hi, Nat.add_mul_mod_self_right, Nat.mod_eq_of_lt hi,
    Nat.zero_add]

theorem stagG_val {V : ℝ} (hV : |V| ≤ 100) (k i : ℕ) : Val (stagG V k i) := by
  have := dblMax_ge
  unfold stagG
  split_ifs
  · exact Or.inr ⟨-10, by rw [abs_neg, abs_of_pos (by norm_num)]; linarith, rfl⟩
  · exact Or.inr ⟨0, by rw [abs_zero]; linarith, rfl⟩
  · exact Or.inr ⟨V, by linarith, rfl⟩

theorem half_add_self (v : ℝ) : FVal.half (FVal.add (.num (v : EReal)) (.num (v : EReal))) = .num (v : EReal) := by
  have h : ¬ (((v : EReal) = ⊤ ∧ (v : EReal) = ⊥) ∨ ((v : EReal) = ⊥ ∧ (v : EReal) = ⊤)) := by
    rintro (⟨h, -⟩ | ⟨-, h⟩) <;> exact EReal.coe_ne_top v h
  have e : FVal.add (.num (v : EReal)) (.num (v : EReal)) = .num ((v : EReal) + (v : EReal)) := by
    simp only [FVal.add, if_neg h]
  rw [e]
  show FVal.num _ = _
  rw [← EReal.coe_add, ← EReal.coe_mul]
  congr 2
  ring

/-- The median of the values of generation `k`. -/
noncomputable def stagM (V : ℝ) (k : ℕ) : FVal := if k < 20 then .num ((0 : ℝ) : EReal) else .num (V : EReal)

theorem medianOf_stag {l : ℕ} (hl : 4 ≤ l) (V : ℝ) (k : ℕ) : Sol.medianOf ((List.range l).map (stagG V k)) = .ok (stagM V k) := by
  have hi : ∀ i < l, idx ((List.range l).map (stagG V k)) i = .ok (stagG V k i) := by
    intro i hi
    rw [idx_eq_ok, List.getElem?_map, List.getElem?_range hi]
    rfl
  have hM : ∀ i, i ≠ 0 → stagG V k i = stagM V k := by
    intro i h
    unfold stagG stagM
    rw [if_neg h]
  unfold Sol.medianOf
  rw [List.length_map, List.length_range, if_neg (by omega)]
  by_cases he : l % 2 = 0
  · rw [if_pos he, hi _ (by omega), hi _ (by omega), hM _ (by omega), hM _ (by omega), Out.ok_bind, Out.ok_bind]
    show Except.ok _ = _
    congr 1
    unfold stagM
    split_ifs <;> exact half_add_self _
  · rw [if_neg he, hi _ (by omega), hM _ (by omega)]

/-- The state after `k` generations of such a search. -/
structure Stag (V : ℝ) (m : ℕ) (s0 : Strat n) (k : ℕ) (t : Strat n) : Prop where
  live : Live t
  recd : Recorded t
  par : t.p = s0.p
  negate : t.negate = false
  calls : t.calls.length = k * s0.p.lambda
  hist : ∃ bests ks, HistInv m t bests ks ∧ bests.map (·.fvalue) = (List.range k).map fun g => stagG V g 0
  med : k ≤ 120 → t.sol.medianFvalues = (List.range k).map (stagM V)

theorem Stag.generation {env : Env n} {s0 t t' : Strat n} {V : ℝ} {m k : ℕ} (hm : 0 < m) (hV : |V| ≤ 100)
    (hf : ∀ j y, env.f j y = stagF s0.p.lambda V j) (hg : s0.p.withGradient = false) (hmt : s0.p.mtFeval = false) (hlam : 4 ≤ s0.p.lambda)
    (hel : s0.p.elitist = false ∧ s0.p.initialElitist = false ∧ s0.p.initialElitistOnRestart = false)
    (I : Stag V m s0 k t) (h : t.generation env = .ok t') : Stag V m s0 (k + 1) t' := by
  obtain ⟨hL, hR, _⟩ := genRun_live (.turn (.refl t) h) I.live I.recd (by rw [I.negate]; intro j y; show Val (env.f j y); rw [hf]; exact stagG_val hV _ _)
  obtain ⟨tr, hrun⟩ := Strat.generation_run h
  obtain ⟨r1, r2, r3, r4, r5, r6, r7, r8, r9, r10⟩ := run_p hrun
  have hev := generation_evals I.live.uh (by rw [I.par]; exact hg) h
  obtain ⟨c, c1, c2, c3⟩ := C36_run env t t' [tr] hrun
  have hc : c.length = t.p.lambda := by omega
  obtain ⟨-, md, hmd, emd⟩ := generation_records I.recd.maxHist h
  obtain ⟨bests, ks, hi, b2⟩ := I.hist
  unfold Strat.generation at h
  obtain ⟨⟨pop, s1⟩, ha, h⟩ := Out.bind_eq_ok.1 h
  obtain ⟨phen, hp, h⟩ := Out.bind_eq_ok.1 h
  obtain ⟨s2, he, h⟩ := Out.bind_eq_ok.1 h
  obtain ⟨s3, ht, h⟩ := Out.bind_eq_ok.1 h
  injection h with h
  subst h
  have hcl := Strat.ask_calls ha (by rw [I.par]; exact hg)
  obtain ⟨⟨es, ei, ue, cc, nz, x1, x2, p1, p2, e1⟩, hpl⟩ := Strat.ask_frame ha
  have hp1 : s1.p = t.p := by rw [e1]
  have hn1 : s1.negate = t.negate := by rw [e1]
  have hca : s1.sol.cands = t.sol.cands := by rw [e1]
  have hie : s1.elitismOn = false := by
    unfold Strat.elitismOn
    rw [hp1, I.par, hel.1, hel.2.1, hel.2.2]
    simp
  have hpl' : pop.length = s0.p.lambda := by rw [hpl, I.par]
  have hcands : s1.sol.cands.length = s0.p.lambda := by rw [hca, I.live.cands, I.par]
  obtain ⟨c0, k0, hi', d1, d2, d3⟩ := (hi.ask ha).turn hm he ht
  have hsort := d3 (by rw [hp1]; exact I.live.uh)
  obtain ⟨s4, h4, e4⟩ := Strat.eval_ok (by rw [hp1]; exact I.live.uh) he
  have e5 : s4 = s1.evaluated env pop phen := by
    rcases Strat.reinject_frame h4 with x | ⟨_, _, x, _⟩
    · exact x
    · have : s1.elitismOn = true := x
      rw [hie] at this; cases this
  have hs2 : s2.sol.cands = (List.range s0.p.lambda).map fun r => (⟨stagG V k r, colX pop r, r⟩ : Cand n) := by
    rw [e4, e5]
    show (s1.evaluated env pop phen).sol.cands = _
    apply List.ext_getElem?
    intro r
    rw [Strat.evaluated_cands (by omega), hpl']
    by_cases hr : r < s0.p.lambda
    · have hord : s1.order env s0.p.lambda = List.range s0.p.lambda := by
        unfold Strat.order
        rw [hp1, I.par, hmt]
        simp
      have hix : (List.range s0.p.lambda).idxOf r = r := by
        have := List.Nodup.idxOf_getElem (List.nodup_range (n := s0.p.lambda)) r (by simpa using hr)
        simpa using this
      rw [if_pos hr, List.getElem?_map, List.getElem?_range hr, hord, hix, hn1, I.negate, hcl, I.calls]
      show some (⟨env.f _ _, _, _⟩ : Cand n) = _
      rw [hf, stagF_at hr]
      rfl
    · rw [if_neg hr, List.getElem?_eq_none (by omega), List.getElem?_eq_none (by simpa using hr)]
  have hs3 : s3.sol.cands = s2.sol.cands := by
    refine stableSort_sorted ?_ hsort
    rw [hs2, List.pairwise_map]
    refine List.pairwise_lt_range.imp ?_
    intro i j hij hlt
    have hj : j ≠ 0 := by omega
    change FVal.lt (stagG V k j) (stagG V k i) at hlt
    unfold stagG at hlt
    rw [if_neg hj] at hlt
    split_ifs at hlt
    · have : ((0 : ℝ) : EReal) < ((-10 : ℝ) : EReal) := hlt
      rw [EReal.coe_lt_coe_iff] at this
      norm_num at this
    · exact lt_irrefl _ hlt
    · exact lt_irrefl _ hlt
  have hvals : s3.sol.cands.map (·.fvalue) = (List.range s0.p.lambda).map (stagG V k) := by
    rw [hs3, hs2, List.map_map]
    rfl
  have hmd' : Sol.medianOf (s3.sol.cands.map (·.fvalue)) = .ok md := hmd
  rw [hvals, medianOf_stag hlam] at hmd'
  injection hmd' with hmd'
  have hc0 : c0.fvalue = stagG V k 0 := by
    rw [hs3, hs2, List.getElem?_map, List.getElem?_range (by omega)] at d1
    injection d1 with d1
    rw [← d1]
  refine ⟨hL, hR, by rw [r1, I.par], by rw [r8, I.negate], by rw [c1, List.length_append, I.calls, hc, I.par]; ring,
    ⟨bests ++ [c0], ks ++ [k0], hi', ?_⟩, fun hk => ?_⟩
  · rw [List.map_append, b2, List.range_succ, List.map_append, List.map_singleton, List.map_singleton, hc0]
  · rw [emd, I.med (by omega), ← hmd', List.range_succ, List.map_append, List.map_singleton]
    unfold Sol.pushBounded
    rw [if_neg]
    have : 120 ≤ Sol.medianBound t.sol.niter n s3.incIter.sol.cands.length := by
      unfold Sol.medianBound
      have h1 : (120 : ℝ) ≤ (0.2 : ℝ) * t.sol.niter + 120 + 30 * n / s3.incIter.sol.cands.length := by
        have : (0 : ℝ) ≤ 30 * n / s3.incIter.sol.cands.length := by positivity
        have : (0 : ℝ) ≤ (0.2 : ℝ) * t.sol.niter := by positivity
        linarith
      have h2 : (120 : ℤ) ≤ ⌈(0.2 : ℝ) * t.sol.niter + 120 + 30 * n / s3.incIter.sol.cands.length⌉ := by
        have := Int.ceil_mono h1
        rwa [show ((120 : ℝ)) = ((120 : ℤ) : ℝ) by norm_num, Int.ceil_intCast] at this
      omega
    simp only [List.length_append, List.length_map, List.length_range, List.length_singleton]
    omega

theorem genRun_stag {env : Env n} {s0 s t : Strat n} {V : ℝ} {m k : ℕ} (hm : 0 < m) (hV : |V| ≤ 100)
    (hf : ∀ j y, env.f j y = stagF s0.p.lambda V j) (hg : s0.p.withGradient = false) (hmt : s0.p.mtFeval = false) (hlam : 4 ≤ s0.p.lambda)
    (hel : s0.p.elitist = false ∧ s0.p.initialElitist = false ∧ s0.p.initialElitistOnRestart = false)
    (h0 : Stag V m s0 0 s) (h : GenRun env s k t) : Stag V m s0 k t := by
  induction h with
  | refl => exact h0
  | stop _ i ih =>
    have I := ih
    obtain ⟨bests, ks, hi, b2⟩ := I.hist
    have hi' := hi.stop i
    obtain ⟨q, r, e⟩ := Strat.stop_frame i
    subst e
    exact ⟨I.live.withRun _ _, I.recd.withRun _ _, I.par, I.negate, I.calls, ⟨bests, ks, hi', b2⟩, I.med⟩
  | turn _ i ih => exact ih.generation hm hV hf hg hmt hlam hel i

end Libcmaes
