import Verif.Lemmas.Run

/-! # Invariants of the histories and of the best and worst candidates -/

namespace Libcmaes

open Spec

variable {n : ℕ}

/-- The histories after the generations whose best candidates are `bests`. -/
structure HistInv (m : ℕ) (s : Strat n) (bests ks : List (Cand n)) : Prop where
  maxHist : s.sol.maxHist = m
  len : ks.length = bests.length
  best : s.sol.bestHist = lastN m bests
  kbest : s.sol.kBestHist = lastN m ks
  bf : s.sol.bfvalues = lastN 20 (bests.map (·.fvalue))

theorem HistInv.ask {m : ℕ} {env : Env n} {s s' : Strat n} {pop} {bests ks : List (Cand n)}
    (hi : HistInv m s bests ks) (h : s.ask env = .ok (pop, s')) : HistInv m s' bests ks := by
  obtain ⟨⟨es, ei, ue, c, nz, x1, x2, p1, p2, e⟩, _⟩ := Strat.ask_frame h
  subst e
  exact ⟨hi.1, hi.2, hi.3, hi.4, hi.5⟩

theorem HistInv.stop {m : ℕ} {env : Env n} {s s' : Strat n} {b} {bests ks : List (Cand n)}
    (hi : HistInv m s bests ks) (h : s.stop env = .ok (b, s')) : HistInv m s' bests ks := by
  obtain ⟨k, r, e⟩ := Strat.stop_frame h
  subst e
  exact ⟨hi.1, hi.2, hi.3, hi.4, hi.5⟩

theorem HistInv.turn {m : ℕ} {env : Env n} {s s2 s3 : Strat n} {cols phen} {bests ks : List (Cand n)}
    (hm : 0 < m) (hi : HistInv m s bests ks) (h : s.eval env cols phen = .ok s2)
    (h' : s2.tell env = .ok s3) :
    ∃ c k, HistInv m s3.incIter (bests ++ [c]) (ks ++ [k]) ∧
      s3.sol.cands[0]? = some c ∧ s3.sol.cands[s.sol.kcand]? = some k ∧
      (s.p.uh = false → stableSort candLt s2.sol.cands = .ok s3.sol.cands) := by
  obtain ⟨c, nu, nzuh, lr, cu, cs, e, _⟩ := Strat.eval_frame h
  obtain ⟨cs', cu', su, ts, sol3, hs, hb, csq, hc, sc, ps, hs', pc, cov, sep, v, sg, xp, xm, mx, mn, lv, le,
    e'⟩ := Strat.tell_frame h'
  obtain ⟨c0, ck, cl, med, h0, hk, hl, hmed, e3, _⟩ := Sol.updateBest_ok hb
  have e4 : s2.sol.kcand = s.sol.kcand := by rw [e]
  have e5 : s2.sol.maxHist = m := by rw [e]; exact hi.1
  have e6 : s2.sol.bestHist = lastN m bests := by rw [e]; exact hi.3
  have e7 : s2.sol.kBestHist = lastN m ks := by rw [e]; exact hi.4
  have e8 : s2.sol.bfvalues = lastN 20 (bests.map (·.fvalue)) := by rw [e]; exact hi.5
  have hcond : ((((lastN m bests ++ [c0]).length : ℕ) : ℤ) > (m : ℤ)) ↔
      (lastN m bests ++ [c0]).length > m := by omega
  have hlen : ∀ (a b : Cand n), (lastN m bests ++ [a]).length = (lastN m ks ++ [b]).length := by
    intro a b; simp [length_lastN, hi.len]
  refine ⟨c0, ck, ?_, ?_, ?_, ?_⟩
  · constructor
    · rw [e', e3]; exact e5
    · simp [hi.len]
    · rw [e', e3, lastN_push hm]
      show (if ((s2.sol.bestHist ++ [c0]).length : ℤ) > s2.sol.maxHist then _ else _) = _
      simp only [e5, e6, hcond]
    · rw [e', e3, lastN_push hm]
      show (if ((s2.sol.bestHist ++ [c0]).length : ℤ) > s2.sol.maxHist then _ else _) = _
      simp only [e5, e6, e7, hcond]
      rw [hlen c0 ck]
    · rw [e', e3, List.map_append, List.map_singleton, ← pushBounded_lastN (by norm_num)]
      show Sol.pushBounded 20 s2.sol.bfvalues c0.fvalue = _
      rw [e8]
  · rw [e', e3]; exact h0
  · rw [e', e3, ← e4]; exact hk
  · intro huh
    have : s2.p.uh = false := by rw [e]; exact huh
    rw [hs this, e', e3]

theorem run_p {env : Env n} {s s' : Strat n} {tr} (h : Run env s tr s') :
    s'.p = s.p ∧ s'.sol.kcand = s.sol.kcand ∧ s'.sol.maxHist = s.sol.maxHist ∧
      s'.niter = s.niter + tr.length ∧ s'.sol.niter = s.sol.niter + tr.length ∧ s'.kind = s.kind ∧
      s'.crit = s.crit ∧ s'.negate = s.negate ∧ s'.initialElitist = s.initialElitist ∧
      s'.sol.initialCand = s.sol.initialCand := by
  have := h.induct (I := fun t past => t.p = s.p ∧ t.sol.kcand = s.sol.kcand ∧
    t.sol.maxHist = s.sol.maxHist ∧ t.niter = s.niter + past.length ∧
    t.sol.niter = s.sol.niter + past.length ∧ t.kind = s.kind ∧
      t.crit = s.crit ∧ t.negate = s.negate ∧ t.initialElitist = s.initialElitist ∧
      t.sol.initialCand = s.sol.initialCand) (past := [])
    ?_ ?_ ?_ ⟨rfl, rfl, rfl, rfl, rfl, rfl, rfl, rfl, rfl, rfl⟩
  · simpa using this
  · intro t past pop t' hi h
    obtain ⟨⟨es, ei, ue, c, nz, x1, x2, p1, p2, e⟩, _⟩ := Strat.ask_frame h
    subst e; exact hi
  · intro t past b t' hi h
    obtain ⟨k, r, e⟩ := Strat.stop_frame h
    subst e; exact hi
  · intro t past cols phen t2 t3 hi h h'
    obtain ⟨c, nu, nzuh, lr, cu, cs, e, _⟩ := Strat.eval_frame h
    obtain ⟨cs', cu', su, ts, sol3, hs, hb, csq, hc, sc, ps, hs', pc, cov, sep, v, sg, xp, xm, mx, mn, lv, le,
      e'⟩ := Strat.tell_frame h'
    obtain ⟨c0, ck, cl, med, h0, hk, hl, hmed, e3, _⟩ := Sol.updateBest_ok hb
    subst e
    rw [e', e3]
    obtain ⟨i1, i2, i3, i4, i5, i6, i7, i8, i9, i10⟩ := hi
    refine ⟨i1, i2, i3, ?_, ?_, i6, i7, i8, i9, i10⟩
    · show t.niter + 1 = _; simp; omega
    · show t.sol.niter + 1 = _; simp; omega

/-- Two generations' minima: the first minimum of a concatenation. -/
theorem FirstMin_append {l1 l2 : List (Cand n)} {a b : Cand n} (hn : NoNaN (l1 ++ l2))
    (h1 : FirstMin l1 a) (h2 : FirstMin l2 b) :
    (FVal.lt b.fvalue a.fvalue → FirstMin (l1 ++ l2) b) ∧
    (¬ FVal.lt b.fvalue a.fvalue → FirstMin (l1 ++ l2) a) := by
  obtain ⟨p1, q1, e1, i1, j1⟩ := h1
  obtain ⟨p2, q2, e2, i2, j2⟩ := h2
  have ha : a.fvalue.IsNum := hn a (by rw [e1]; simp)
  have hb : b.fvalue.IsNum := hn b (by rw [e2]; simp)
  constructor
  · intro hlt
    refine ⟨l1 ++ p2, q2, by rw [e2]; simp, ?_, j2⟩
    intro d hd
    rcases List.mem_append.1 hd with hd | hd
    · have hnd : ¬ FVal.lt d.fvalue a.fvalue := by
        rw [e1] at hd
        rcases List.mem_append.1 hd with hd | hd
        · exact FVal.lt_asymm (i1 d hd)
        · rcases List.mem_cons.1 hd with rfl | hd
          · exact FVal.lt_irrefl _
          · exact j1 d hd
      have hdn : d.fvalue.IsNum := hn d (List.mem_append_left _ hd)
      by_contra hc
      exact FVal.not_lt_trans hdn hnd hc hlt
    · exact i2 d hd
  · intro hlt
    refine ⟨p1, q1 ++ l2, by rw [e1]; simp, i1, ?_⟩
    intro d hd
    rcases List.mem_append.1 hd with hd | hd
    · exact j1 d hd
    · have hnd : ¬ FVal.lt d.fvalue b.fvalue := by
        rw [e2] at hd
        rcases List.mem_append.1 hd with hd | hd
        · exact FVal.lt_asymm (i2 d hd)
        · rcases List.mem_cons.1 hd with rfl | hd
          · exact FVal.lt_irrefl _
          · exact j2 d hd
      exact FVal.not_lt_trans hb hlt hnd

end Libcmaes
