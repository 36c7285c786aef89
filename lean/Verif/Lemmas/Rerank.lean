import Verif.Lemmas.Uh
import Verif.Lemmas.Tell
import Verif.Lemmas.Init

/-! # Re-evaluation and reranking under uncertainty handling -/

namespace Libcmaes

open Spec

variable {n : ℕ}

theorem rlambda_mem {p : Params n} (hp : GoodParams p) : 0 ≤ p.rlambda ∧ p.rlambda ≤ 1 ∧
    2 ≤ p.rlambda * p.lambda := by
  have hl : (2 : ℝ) ≤ p.lambda := by exact_mod_cast hp.lambda
  rw [hp.rlambda]
  refine ⟨by positivity, ?_, ?_⟩
  · rw [max_le_iff]
    exact ⟨by norm_num, by rw [div_le_one (by linarith)]; exact hl⟩
  · have h : 2 / (p.lambda : ℝ) * p.lambda = 2 := by field_simp
    have : 2 / (p.lambda : ℝ) * p.lambda ≤ max 0.1 (2 / (p.lambda : ℝ)) * p.lambda :=
      mul_le_mul_of_nonneg_right (le_max_right _ _) (by linarith)
    linarith

theorem lambdaReev_good (env : Env n) (p : Params n) (k : ℕ) (hg : GoodParams p) :
    2 ≤ Strat.lambdaReevOf p (env.u k) ∧ Strat.lambdaReevOf p (env.u k) ≤ p.lambda ∧
      (Strat.lambdaReevOf p (env.u k) = ⌊p.rlambda * p.lambda⌋₊ ∨
        Strat.lambdaReevOf p (env.u k) = ⌈p.rlambda * p.lambda⌉₊) := by
  obtain ⟨h1, h2, h3⟩ := rlambda_mem hg
  have hf : 2 ≤ ⌊p.rlambda * p.lambda⌋₊ := Nat.le_floor (by exact_mod_cast h3)
  obtain ⟨a, b, c⟩ := lambdaReevOf_mem (env.u_mem k).1 h1 h2 (by have := hg.lambda; omega)
  have hc : Strat.lambdaReevOf p (env.u k) = ⌊p.rlambda * p.lambda⌋₊ ∨
      Strat.lambdaReevOf p (env.u k) = ⌈p.rlambda * p.lambda⌉₊ := by
    rcases c with c | c | ⟨c, _⟩
    · exact Or.inl c
    · exact Or.inr c
    · omega
  refine ⟨?_, b, hc⟩
  rcases hc with hc | hc
  · omega
  · have := Nat.floor_le_ceil (p.rlambda * p.lambda); omega

/-- `eval` with uncertainty handling, in closed form. -/
theorem eval_uh_eq {env : Env n} {s : Strat n} {cols phen : List (Vec n)} (huh : s.p.uh = true)
    (h1 : cols.length ≤ s.sol.cands.length) (h2 : phen ≠ [] → phen.length = cols.length)
    (h3 : Strat.lambdaReevOf s.p (env.u s.nu) ≤ cols.length) :
    s.eval env cols phen = (Strat.reinject { s.evaluated env cols phen with
        nu := s.nu + 1, nzuh := s.nzuh + Strat.lambdaReevOf s.p (env.u s.nu)
        calls := (s.evaluated env cols phen).calls ++
          (List.range (Strat.lambdaReevOf s.p (env.u s.nu))).map fun r =>
            (s.uhPoint env cols phen r,
              env.f ((s.evaluated env cols phen).calls.length + r) (s.uhPoint env cols phen r))
        sol := { (s.evaluated env cols phen).sol with
          lambdaReev := Strat.lambdaReevOf s.p (env.u s.nu)
          candsUh := (List.range cols.length).map ((s.evaluated env cols phen).uhCand env cols phen
            (Strat.lambdaReevOf s.p (env.u s.nu))) } } cols.length >>= fun s3 =>
      .ok (s3.updateFevals (cols.length + Strat.lambdaReevOf s.p (env.u s.nu)))) := by
  have hu := Strat.performUh_eq (env := env) (s := s.evaluated env cols phen) (cols := cols) (phen := phen)
    cols.length (by rw [Strat.evaluated_length]; exact h1) h2 h3
  unfold Strat.eval
  rw [Strat.eval_loop h1 fun h => (h2 h).ge, Out.ok_bind, if_pos (by simpa [Strat.evaluated] using huh),
    hu, Out.ok_bind]
  rfl

theorem mapM_at {l : List RankedCand} {cands cs : List (Cand n)}
    (h : l.mapM (fun c => at! cands c.idx) = .ok cs) :
    cs = (l.map (·.idx)).map fun i => cands.getD i Cand.blank := by
  have h' := Out.mapM_eq_ok.1 h
  clear h
  induction h' with
  | nil => rfl
  | cons h _ ih =>
    rw [at!_eq_ok] at h
    rw [List.map_cons, List.map_cons, ← ih, List.getD_eq_getElem?_getD, h]
    rfl

/-- The reranking of `uncertainty_handling` rearranges the population. -/
theorem uncertaintyHandling_perm {env : Env n} {s s' : Strat n}
    (hidx : (s.sol.candsUh.map (·.idx)).Perm (List.range s.sol.cands.length))
    (h : s.uncertaintyHandling env = .ok s') : s'.sol.cands.Perm s.sol.cands := by
  unfold Strat.uncertaintyHandling at h
  obtain ⟨l1, h1, h⟩ := Out.bind_eq_ok.1 h
  obtain ⟨l2, h2, h⟩ := Out.bind_eq_ok.1 h
  simp only at h
  by_cases h0 : s.sol.lambdaReev = 0
  · rw [if_pos h0] at h; cases h
  rw [if_neg h0] at h
  obtain ⟨ts, _, h⟩ := Out.bind_eq_ok.1 h
  obtain ⟨l4, h4, h⟩ := Out.bind_eq_ok.1 h
  obtain ⟨cs, h5, h⟩ := Out.bind_eq_ok.1 h
  injection h with h
  have hz : ∀ (l : List RankedCand) (g : RankedCand × ℕ → RankedCand), (∀ q, (g q).idx = q.1.idx) →
      (l.zipIdx.map g).map (·.idx) = l.map (·.idx) := by
    intro l g hg
    rw [List.map_map]
    have : (fun q : RankedCand × ℕ => (g q).idx) = (fun c : RankedCand => c.idx) ∘ Prod.fst := by
      funext q; exact hg q
    show l.zipIdx.map (fun q => (g q).idx) = _
    rw [this, ← List.map_map]
    exact congrArg _ (List.zipIdx_map_fst 0 l)
  have p1 := (unstableSort_ok h1).2.1
  have p2 := (unstableSort_ok h2).2.1
  have p4 := (unstableSort_ok h4).2.1
  have q1 := p1.map (·.idx)
  have q2 := p2.map (·.idx)
  have q4 := p4.map (·.idx)
  rw [hz l1 (fun q => { q.1 with r1 := q.2 }) (fun q => rfl)] at q2
  rw [List.map_map] at q4
  have e3 : ((fun c : RankedCand => c.idx) ∘ fun c : RankedCand =>
      if s.sol.lambdaReev ≤ c.idx then c
      else { c with delta := (c.r2 : ℤ) - c.r1 - sgn ((c.r2 : ℤ) - c.r1) }) = fun c => c.idx := by
    funext c
    simp only [Function.comp]
    split_ifs <;> rfl
  rw [e3, hz l2 (fun q => { q.1 with r2 := q.2 }) (fun q => rfl)] at q4
  have q : (l4.map (·.idx)).Perm (List.range s.sol.cands.length) := ((q4.trans q2).trans q1).trans hidx
  have hcs : cs = (l4.map (·.idx)).map fun i => s.sol.cands.getD i Cand.blank := by
    exact mapM_at h5
  rw [← h]
  show cs.Perm _
  rw [hcs]
  refine (q.map _).trans ?_
  have : (List.range s.sol.cands.length).map (fun i => s.sol.cands.getD i Cand.blank) = s.sol.cands := by
    apply List.ext_getElem
    · simp
    · intro i i1 i2
      simp [List.getD_eq_getElem?_getD, i2]
  rw [this]

/-- When `tell` returns after `eval` of a whole population with uncertainty handling, the population is
rearranged. -/
theorem rerank_perm {env : Env n} {s s2 s3 : Strat n} {cols phen : List (Vec n)} (hp : GoodParams s.p)
    (huh : s.p.uh = true) (hc : s.sol.cands.length = s.p.lambda) (hl : cols.length = s.p.lambda)
    (hl' : phen.length = s.p.lambda) (h : s.eval env cols phen = .ok s2) (h' : s2.tell env = .ok s3) :
    s3.sol.cands.Perm s2.sol.cands := by
  obtain ⟨a1, a2, -⟩ := lambdaReev_good env s.p s.nu hp
  rw [eval_uh_eq huh (by omega) (fun _ => by omega) (by omega)] at h
  obtain ⟨s1, h1, h⟩ := Out.bind_eq_ok.1 h
  injection h with h
  have hu : s2.sol.candsUh = (List.range cols.length).map ((s.evaluated env cols phen).uhCand env cols phen
      (Strat.lambdaReevOf s.p (env.u s.nu))) ∧ s2.sol.cands.length = s.p.lambda ∧ s2.p = s.p := by
    rw [← h]
    show s1.sol.candsUh = _ ∧ s1.sol.cands.length = _ ∧ s1.p = _
    rcases Strat.reinject_frame h1 with h | ⟨_, _, _, h⟩ <;> rw [h]
    · exact ⟨rfl, by rw [← hc]; exact Strat.evaluated_length env s cols phen, rfl⟩
    · refine ⟨rfl, ?_, rfl⟩
      show (List.set _ _ _).length = _
      rw [List.length_set, ← hc]
      exact Strat.evaluated_length env s cols phen
  obtain ⟨t1, tS, sol3, sol4, k1, k2, k3, k4, k5⟩ := Strat.tell_ok h'
  unfold Strat.rank at k1
  rw [if_pos (by rw [hu.2.2]; exact huh)] at k1
  have hperm := uncertaintyHandling_perm (by
    rw [hu.1, hu.2.1, List.map_map, hl]
    have : ((fun c : RankedCand => c.idx) ∘ (s.evaluated env cols phen).uhCand env cols phen
      (Strat.lambdaReevOf s.p (env.u s.nu))) = id := by funext r; rfl
    rw [this, List.map_id]) k1
  obtain ⟨c0, ck, cl, med, _, _, _, _, e3, _⟩ := Sol.updateBest_ok k3
  obtain ⟨csq, hc, sc, ps, hs, pc, cov, sep, v, sg, xp, xm, e4⟩ := covarianceUpdate_frame k4
  obtain ⟨sg', mx, mn, lv, le, e5⟩ := Strat.tellFinish_frame k5
  rw [e5, e4, e3]
  exact hperm

end Libcmaes
