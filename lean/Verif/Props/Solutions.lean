import Verif.Lemmas.Best

/-!
# C20–C24: ranking, histories, best and worst candidates

`Run`, `Ranked`, `FirstMin`, `Largest`, `lastN`, `NoNaN` are in Spec/Run.lean.
-/

namespace Libcmaes

open Spec

variable {n : ℕ}

/-! ### C20 -/

/-- **C20.** `tell()` leaves the evaluated candidates ranked: none lost, none invented, ascending
values, ties in evaluation order; `best_candidate()` is then the (earliest) minimum of this
generation. -/
theorem C20_tell_ranks (env : Env n) (s s' : Strat n) (huh : s.p.uh = false) (hm : 0 < s.sol.maxHist)
    (h : s.tell env = .ok s') :
    Ranked s.sol.cands s'.sol.cands ∧ FirstMin s.sol.cands s'.sol.bestCandidate ∧
      s'.sol.cands.head? = some s'.sol.bestCandidate := by
  obtain ⟨cs', cu', su, ts, sol3, hs, hb, csq, hc, sc, ps, hs', pc, cov, sep, v, sg, xp, xm, mx, mn, lv, le,
    e'⟩ := Strat.tell_frame h
  obtain ⟨c0, ck, cl, med, h0, hk, hl, hmed, e3, _⟩ := Sol.updateBest_ok hb
  have hs1 := hs huh
  have hcs : s'.sol.cands = cs' := by rw [e', e3]
  have hbest : s'.sol.bestCandidate = c0 := by
    have : s'.sol.bestHist.getLast? = some c0 := by
      rw [e', e3]
      show (if ((s.sol.bestHist ++ [c0]).length : ℤ) > s.sol.maxHist then (s.sol.bestHist ++ [c0]).tail
        else s.sol.bestHist ++ [c0]).getLast? = _
      split_ifs with hh
      · cases hx : s.sol.bestHist with
        | nil => rw [hx] at hh; simp at hh; omega
        | cons a t => simp
      · simp
    unfold Sol.bestCandidate
    rw [this]
  rw [hbest, hcs]
  refine ⟨ranked_of_sorts (stableSort_eq_ok hs1).2, firstMin_of_stableSort hs1 h0, ?_⟩
  rw [List.head?_eq_getElem?]; exact h0

/-- **C20**, existence: without NaN the ranking is defined, infinities included. -/
theorem C20_rank_defined (env : Env n) (s : Strat n) (huh : s.p.uh = false) (hn : NoNaN s.sol.cands) :
    ∃ s1, s.rank env = .ok s1 ∧ Ranked s.sol.cands s1.sol.cands := by
  have hsw : StrictWeakOn candLt s.sol.cands :=
    (strictWeakOn_fval (fun c : Cand n => c.fvalue) s.sol.cands).2 (Or.inl hn)
  obtain ⟨out, ho, hs⟩ := stableSort_sorts hsw
  refine ⟨{ s with sol := { s.sol with cands := out } }, ?_, ranked_of_sorts hs⟩
  unfold Strat.rank Sol.sortCandidates
  rw [if_neg (by simp [huh]), ho]
  rfl

/-- Witness: values 2, +inf, -inf, 2: the two candidates of value 2 stay in order. -/
example : let c (v : EReal) (i : ℤ) : Cand 1 := ⟨.num v, fun _ => 0, i⟩
    NoNaN [c 2 0, c ⊤ 1, c ⊥ 2, c 2 3] ∧ FirstMin [c 2 0, c ⊤ 1, c ⊥ 2, c 2 3] (c ⊥ 2) := by
  intro c
  refine ⟨by simp [NoNaN, c, FVal.IsNum], [c 2 0, c ⊤ 1], [c 2 3], rfl, ?_, ?_⟩
  · have : (⊥ : EReal) < 2 := by
      rw [bot_lt_iff_ne_bot]; exact EReal.coe_ne_bot (2 : ℝ)
    simp [c, FVal.lt, this]
  · simp [c, FVal.lt]

/-! ### C21 -/

/-- **C21.** Over any execution (any number of generations, any populations), the two histories hold the
most recent `max_hist` best resp. k-th best candidates in order, and the list of best values the most
recent 20; so their lengths are bounded by these numbers.  The best candidate of a generation is its
earliest minimum. -/
theorem C21_histories (env : Env n) (s s' : Strat n) (tr : List (List (Cand n))) (m : ℕ) (hm : 0 < m)
    (hmax : s.sol.maxHist = m) (hb : s.sol.bestHist = []) (hk : s.sol.kBestHist = [])
    (hf : s.sol.bfvalues = []) (huh : s.p.uh = false) (h : Run env s tr s') :
    ∃ bests ks : List (Cand n), List.Forall₂ FirstMin tr bests ∧
      List.Forall₂ (fun pop k => ∃ out, Ranked pop out ∧ out[s.sol.kcand]? = some k) tr ks ∧
      s'.sol.bestHist = lastN m bests ∧ s'.sol.kBestHist = lastN m ks ∧
      s'.sol.bfvalues = lastN 20 (bests.map (·.fvalue)) ∧
      s'.sol.bestHist.length = min m tr.length ∧ s'.sol.kBestHist.length = min m tr.length ∧
      s'.sol.bfvalues.length = min 20 tr.length := by
  have key := h.induct (I := fun t past => t.p.uh = false ∧ t.sol.kcand = s.sol.kcand ∧
      ∃ bests ks, HistInv m t bests ks ∧ List.Forall₂ FirstMin past bests ∧
      List.Forall₂ (fun pop k => ∃ out, Ranked pop out ∧ out[s.sol.kcand]? = some k) past ks)
    (past := []) ?_ ?_ ?_ ⟨huh, rfl, [], [], ⟨hmax, rfl, by simp [hb, lastN], by simp [hk, lastN],
      by simp [hf, lastN]⟩, .nil, .nil⟩
  · obtain ⟨_, _, bests, ks, hi, h1, h2⟩ := key
    rw [List.nil_append] at h1 h2
    refine ⟨bests, ks, h1, h2, hi.best, hi.kbest, hi.bf, ?_, ?_, ?_⟩
    · rw [hi.best, length_lastN, h1.length_eq]
    · rw [hi.kbest, length_lastN, h2.length_eq]
    · rw [hi.bf, length_lastN, List.length_map, h1.length_eq]
  · intro t past pop t' ⟨hu, hkc, bests, ks, hi, h1, h2⟩ hh
    have hp := run_p (.ask hh (.refl _))
    exact ⟨by rw [hp.1]; exact hu, by rw [hp.2.1]; exact hkc, bests, ks, hi.ask hh, h1, h2⟩
  · intro t past b t' ⟨hu, hkc, bests, ks, hi, h1, h2⟩ hh
    have hp := run_p (.stop hh (.refl _))
    exact ⟨by rw [hp.1]; exact hu, by rw [hp.2.1]; exact hkc, bests, ks, hi.stop hh, h1, h2⟩
  · intro t past cols phen t2 t3 ⟨hu, hkc, bests, ks, hi, h1, h2⟩ hh hh'
    have hp := run_p (.turn hh hh' (.refl _))
    obtain ⟨c, k, hi', hc, hk', hsort⟩ := hi.turn hm hh hh'
    refine ⟨by rw [hp.1]; exact hu, by rw [hp.2.1]; exact hkc, bests ++ [c], ks ++ [k], hi', ?_, ?_⟩
    · exact List.rel_append h1 (.cons (firstMin_of_stableSort (hsort hu) hc) .nil)
    · exact List.rel_append h2 (.cons ⟨_, ranked_of_sorts (stableSort_eq_ok (hsort hu)).2, hkc ▸ hk'⟩ .nil)

/-- **C21**, with uncertainty handling or not: the lengths stay bounded. -/
theorem C21_bounded (env : Env n) (s s' : Strat n) (tr : List (List (Cand n))) (m : ℕ) (hm : 0 < m)
    (hmax : s.sol.maxHist = m) (hb : s.sol.bestHist = []) (hk : s.sol.kBestHist = [])
    (hf : s.sol.bfvalues = []) (h : Run env s tr s') :
    s'.sol.bestHist.length = min m tr.length ∧ s'.sol.kBestHist.length = min m tr.length ∧
      s'.sol.bfvalues.length = min 20 tr.length := by
  have key := h.induct (I := fun t past => ∃ bests ks, HistInv m t bests ks ∧
      bests.length = past.length)
    (past := []) ?_ ?_ ?_ ⟨[], [], ⟨hmax, rfl, by simp [hb, lastN], by simp [hk, lastN],
      by simp [hf, lastN]⟩, rfl⟩
  · obtain ⟨bests, ks, hi, h1⟩ := key
    rw [List.nil_append] at h1
    refine ⟨?_, ?_, ?_⟩
    · rw [hi.best, length_lastN, h1]
    · rw [hi.kbest, length_lastN, hi.len, h1]
    · rw [hi.bf, length_lastN, List.length_map, h1]
  · intro t past pop t' ⟨bests, ks, hi, h1⟩ hh
    exact ⟨bests, ks, hi.ask hh, h1⟩
  · intro t past b t' ⟨bests, ks, hi, h1⟩ hh
    exact ⟨bests, ks, hi.stop hh, h1⟩
  · intro t past cols phen t2 t3 ⟨bests, ks, hi, h1⟩ hh hh'
    obtain ⟨c, k, hi', _⟩ := hi.turn hm hh hh'
    exact ⟨_, _, hi', by simp [h1]⟩

/-- Witness: the history limit of a constructed solution is positive for every setting. -/
theorem C21_max_hist_pos (maxHist : ℤ) (n lambda : ℕ) : 0 < maxHistOf maxHist n lambda := by
  unfold maxHistOf
  split_ifs with h
  · exact h
  · positivity

/-! ### C22 -/

/-- **C22.** Over any execution without NaN, the best seen candidate is the earliest minimum of all
candidates told so far, preceded by the best seen candidate at the start (the initial point, if it was
evaluated). -/
theorem C22_best_seen (env : Env n) (s s' : Strat n) (tr : List (List (Cand n)))
    (huh : s.p.uh = false) (h0 : s.sol.bestSeen = none → s.sol.niter = 0) (htr : tr ≠ [])
    (hn : NoNaN (s.sol.bestSeen.toList ++ tr.flatten)) (h : Run env s tr s') :
    ∃ b, s'.sol.bestSeen = some b ∧ FirstMin (s.sol.bestSeen.toList ++ tr.flatten) b := by
  have key := h.induct (I := fun t past => t.p.uh = false ∧
      (NoNaN (s.sol.bestSeen.toList ++ past.flatten) →
        (past = [] ∧ s.sol.bestSeen = none ∧ t.sol.bestSeen = none ∧ t.sol.niter = 0) ∨
        ∃ b, t.sol.bestSeen = some b ∧ FirstMin (s.sol.bestSeen.toList ++ past.flatten) b))
    (past := []) ?_ ?_ ?_ ?_
  · rw [List.nil_append] at key
    rcases key.2 hn with ⟨h1, _⟩ | h1
    · exact absurd h1 htr
    · exact h1
  · intro t past pop t' ⟨hu, hi⟩ hh
    obtain ⟨⟨es, ei, ue, c, nz, x1, x2, p1, p2, e⟩, _⟩ := Strat.ask_frame hh
    subst e; exact ⟨hu, hi⟩
  · intro t past b t' ⟨hu, hi⟩ hh
    obtain ⟨k, r, e⟩ := Strat.stop_frame hh
    subst e; exact ⟨hu, hi⟩
  · intro t past cols phen t2 t3 ⟨hu, hi⟩ hh hh'
    have hp := run_p (.turn hh hh' (.refl _))
    refine ⟨by rw [hp.1]; exact hu, fun hnn => Or.inr ?_⟩
    rw [List.flatten_append, List.flatten_singleton, ← List.append_assoc] at hnn ⊢
    have hi' := hi fun c hc => hnn c (List.mem_append_left _ hc)
    obtain ⟨c, nu, nzuh, lr, cu, cs, e, _⟩ := Strat.eval_frame hh
    obtain ⟨cs', cu', su, ts, sol3, hs, hb, csq, hc, sc, ps, hs', pc, cov, sep, v, sg, xp, xm, mx, mn, lv, le,
      e'⟩ := Strat.tell_frame hh'
    obtain ⟨c0, ck, cl, med, h0', hk, hl, hmed, e3, b1, b2, b3, b4, _⟩ := Sol.updateBest_ok hb
    have hmin : FirstMin t2.sol.cands c0 := firstMin_of_stableSort (hs (by rw [e]; exact hu)) h0'
    have ebs : t2.sol.bestSeen = t.sol.bestSeen := by rw [e]
    have eni : t2.sol.niter = t.sol.niter := by rw [e]
    have efin : t3.incIter.sol.bestSeen = sol3.bestSeen := by rw [e']; rfl
    rw [efin]
    rcases hi' with ⟨i1, i2, i3, i4⟩ | ⟨b, i1, i2⟩
    · refine ⟨c0, (b1 (ebs.trans i3) (eni.trans i4)).1, ?_⟩
      rw [i1, i2]
      simpa using hmin
    · have hab := FirstMin_append hnn i2 hmin
      by_cases hlt : FVal.lt c0.fvalue b.fvalue
      · exact ⟨c0, (b3 b (ebs.trans i1) hlt).1, hab.1 hlt⟩
      · exact ⟨b, (b4 b (ebs.trans i1) hlt).1, hab.2 hlt⟩
  · refine ⟨huh, fun _ => ?_⟩
    cases hbs : s.sol.bestSeen with
    | none => exact Or.inl ⟨rfl, rfl, hbs ▸ rfl, h0 hbs⟩
    | some b => exact Or.inr ⟨b, rfl, [], [], by simp, by simp, by simp⟩

/-- **C22** fails if the first best value is NaN: whatever comes later, the best seen candidate never
changes again.  (`C22_nan_run` in Props/Total.lean exhibits such a run.) -/
theorem C22_nan_false (env : Env n) (s s' : Strat n) (tr : List (List (Cand n))) (b : Cand n)
    (hb : s.sol.bestSeen = some b) (hnan : b.fvalue = .nan) (h : Run env s tr s') :
    s'.sol.bestSeen = some b := by
  refine h.induct (I := fun t _ => t.sol.bestSeen = some b) (past := []) ?_ ?_ ?_ hb
  · intro t past pop t' hi hh
    obtain ⟨⟨es, ei, ue, c, nz, x1, x2, p1, p2, e⟩, _⟩ := Strat.ask_frame hh
    subst e; exact hi
  · intro t past b t' hi hh
    obtain ⟨k, r, e⟩ := Strat.stop_frame hh
    subst e; exact hi
  · intro t past cols phen t2 t3 hi hh hh'
    obtain ⟨c, nu, nzuh, lr, cu, cs, e, _⟩ := Strat.eval_frame hh
    obtain ⟨cs', cu', su, ts, sol3, hs, hb, csq, hc, sc, ps, hs', pc, cov, sep, v, sg, xp, xm, mx, mn, lv, le,
      e'⟩ := Strat.tell_frame hh'
    obtain ⟨c0, ck, cl, med, h0', hk, hl, hmed, e3, b1, b2, b3, b4, _⟩ := Sol.updateBest_ok hb
    have ebs : t2.sol.bestSeen = t.sol.bestSeen := by rw [e]
    rw [e']
    exact (b4 b (ebs.trans hi) (by rw [hnan]; exact FVal.not_lt_nan _)).1

/-! ### C23 -/

/-- **C23.** Over any execution without NaN, the worst seen candidate is a maximum of all candidates told
so far, preceded by the worst seen candidate at the start, if any. -/
theorem C23_worst_seen (env : Env n) (s s' : Strat n) (tr : List (List (Cand n)))
    (huh : s.p.uh = false) (h0 : s.sol.worstSeen = none → s.sol.niter = 0) (htr : tr ≠ [])
    (hn : NoNaN (s.sol.worstSeen.toList ++ tr.flatten)) (h : Run env s tr s') :
    ∃ b, s'.sol.worstSeen = some b ∧ Largest (s.sol.worstSeen.toList ++ tr.flatten) b := by
  have key := h.induct (I := fun t past => t.p.uh = false ∧
      (NoNaN (s.sol.worstSeen.toList ++ past.flatten) →
        (past = [] ∧ s.sol.worstSeen = none ∧ t.sol.worstSeen = none ∧ t.sol.niter = 0) ∨
        ∃ b, t.sol.worstSeen = some b ∧ Largest (s.sol.worstSeen.toList ++ past.flatten) b))
    (past := []) ?_ ?_ ?_ ?_
  · rw [List.nil_append] at key
    rcases key.2 hn with ⟨h1, _⟩ | h1
    · exact absurd h1 htr
    · exact h1
  · intro t past pop t' ⟨hu, hi⟩ hh
    obtain ⟨⟨es, ei, ue, c, nz, x1, x2, p1, p2, e⟩, _⟩ := Strat.ask_frame hh
    subst e; exact ⟨hu, hi⟩
  · intro t past b t' ⟨hu, hi⟩ hh
    obtain ⟨k, r, e⟩ := Strat.stop_frame hh
    subst e; exact ⟨hu, hi⟩
  · intro t past cols phen t2 t3 ⟨hu, hi⟩ hh hh'
    have hp := run_p (.turn hh hh' (.refl _))
    refine ⟨by rw [hp.1]; exact hu, fun hnn => Or.inr ?_⟩
    rw [List.flatten_append, List.flatten_singleton, ← List.append_assoc] at hnn ⊢
    have hi' := hi fun c hc => hnn c (List.mem_append_left _ hc)
    obtain ⟨c, nu, nzuh, lr, cu, cs, e, _⟩ := Strat.eval_frame hh
    obtain ⟨cs', cu', su, ts, sol3, hs, hb, csq, hc, sc, ps, hs', pc, cov, sep, v, sg, xp, xm, mx, mn, lv, le,
      e'⟩ := Strat.tell_frame hh'
    obtain ⟨c0, ck, cl, med, h0', hk, hl, hmed, e3, _, _, _, _, b1, b2, b3, b4⟩ := Sol.updateBest_ok hb
    have hmax : Largest t2.sol.cands cl := largest_of_stableSort (hs (by rw [e]; exact hu)) hl
    have ebs : t2.sol.worstSeen = t.sol.worstSeen := by rw [e]
    have eni : t2.sol.niter = t.sol.niter := by rw [e]
    have efin : t3.incIter.sol.worstSeen = sol3.worstSeen := by rw [e']; rfl
    rw [efin]
    rcases hi' with ⟨i1, i2, i3, i4⟩ | ⟨b, i1, i2, i3⟩
    · refine ⟨cl, b1 (ebs.trans i3) (eni.trans i4), ?_⟩
      rw [i1, i2]
      simpa using hmax
    · have hbn : b.fvalue.IsNum := hnn b (List.mem_append_left _ i2)
      have hcn : cl.fvalue.IsNum := hnn cl (List.mem_append_right _ hmax.1)
      by_cases hlt : FVal.lt b.fvalue cl.fvalue
      · refine ⟨cl, b3 b (ebs.trans i1) hlt, List.mem_append_right _ hmax.1, fun d hd => ?_⟩
        rcases List.mem_append.1 hd with hd | hd
        · exact FVal.not_lt_trans hbn (i3 d hd) (FVal.lt_asymm hlt)
        · exact hmax.2 d hd
      · refine ⟨b, b4 b (ebs.trans i1) hlt, List.mem_append_left _ i2, fun d hd => ?_⟩
        rcases List.mem_append.1 hd with hd | hd
        · exact i3 d hd
        · exact FVal.not_lt_trans hcn (hmax.2 d hd) hlt
  · refine ⟨huh, fun _ => ?_⟩
    cases hbs : s.sol.worstSeen with
    | none => exact Or.inl ⟨rfl, rfl, hbs ▸ rfl, h0 hbs⟩
    | some b => exact Or.inr ⟨b, rfl, by simp, by simp [FVal.lt_irrefl]⟩

/-! ### C24 -/

/-- **C24.** Ranking a population is defined exactly if it contains no NaN or no two of its values are
comparable as smaller and larger. -/
theorem C24_ranking_defined_iff (s : Sol n) :
    (∃ s', s.sortCandidates = .ok s') ↔
      NoNaN s.cands ∨ ∀ a ∈ s.cands, ∀ b ∈ s.cands, ¬ FVal.lt a.fvalue b.fvalue := by
  rw [NoNaN, ← strictWeakOn_fval (fun c : Cand n => c.fvalue) s.cands]
  constructor
  · rintro ⟨s', h⟩
    obtain ⟨c, h1, _⟩ := Out.bind_eq_ok.1 h
    exact (stableSort_eq_ok h1).1
  · intro h
    obtain ⟨out, ho, _⟩ := stableSort_sorts h
    unfold Sol.sortCandidates
    rw [show stableSort candLt s.cands = .ok out from ho]
    exact ⟨_, rfl⟩

/-- **C24.** `tell()` on a population mixing a NaN with two different values is undefined behaviour. -/
theorem C24_tell_undefined (env : Env n) (s : Strat n) (huh : s.p.uh = false) (a b c : Cand n)
    (ha : a ∈ s.sol.cands) (hb : b ∈ s.sol.cands) (hc : c ∈ s.sol.cands) (hnan : a.fvalue = .nan)
    (hlt : FVal.lt b.fvalue c.fvalue) : s.tell env = .error .ub := by
  have hns : ¬ StrictWeakOn candLt s.sol.cands := by
    intro h
    rcases (strictWeakOn_fval (fun c : Cand n => c.fvalue) s.sol.cands).1 h with h | h
    · have := h a ha
      rw [hnan] at this
      simp [FVal.IsNum] at this
    · exact h b hb c hc hlt
  unfold Strat.tell Strat.rank Sol.sortCandidates stableSort
  rw [if_neg (by simp [huh]), if_neg hns]
  rfl

/-- Witness: three candidates with values NaN, 0, 1. -/
example : let c (v : FVal) (i : ℤ) : Cand 1 := ⟨v, fun _ => 0, i⟩
    FVal.lt (c (.num 0) 1).fvalue (c (.num 1) 2).fvalue := by
  simp [FVal.lt]

end Libcmaes
