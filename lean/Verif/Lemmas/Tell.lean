import Verif.Lemmas.Frame
import Verif.Lemmas.Sort
import Verif.Spec.Run

/-! # Inversion of `tell` and of the bookkeeping of best candidates -/

namespace Libcmaes

open Spec

variable {n : ℕ}

theorem at!_eq_ok' {α : Type} {l : List α} {i : ℕ} {a : α} : at! l i = .ok a ↔ l[i]? = some a :=
  at!_eq_ok

theorem Sol.updateBest_ok {s s' : Sol n} (h : s.updateBest = .ok s') :
    ∃ c0 ck cl med, s.cands[0]? = some c0 ∧ s.cands[s.kcand]? = some ck ∧
      s.cands.getLast? = some cl ∧ medianOf (s.cands.map (·.fvalue)) = .ok med ∧
      s' = { s with
        bestHist := if ((s.bestHist ++ [c0]).length : ℤ) > s.maxHist then (s.bestHist ++ [c0]).tail
          else s.bestHist ++ [c0]
        kBestHist := if ((s.bestHist ++ [c0]).length : ℤ) > s.maxHist then (s.kBestHist ++ [ck]).tail
          else s.kBestHist ++ [ck]
        bfvalues := pushBounded 20 s.bfvalues c0.fvalue
        medianFvalues := pushBounded (medianBound s.niter n s.cands.length) s.medianFvalues med
        bestSeen := s'.bestSeen, bestSeenIter := s'.bestSeenIter, worstSeen := s'.worstSeen } ∧
      (s.bestSeen = none → s.niter = 0 → s'.bestSeen = some c0 ∧ s'.bestSeenIter = some 0) ∧
      (s.bestSeen = none → s.niter ≠ 0 → s'.bestSeen = none ∧ s'.bestSeenIter = s.bestSeenIter) ∧
      (∀ b, s.bestSeen = some b → FVal.lt c0.fvalue b.fvalue →
        s'.bestSeen = some c0 ∧ s'.bestSeenIter = some s.niter) ∧
      (∀ b, s.bestSeen = some b → ¬ FVal.lt c0.fvalue b.fvalue →
        s'.bestSeen = some b ∧ s'.bestSeenIter = s.bestSeenIter) ∧
      (s.worstSeen = none → s.niter = 0 → s'.worstSeen = some cl) ∧
      (s.worstSeen = none → s.niter ≠ 0 → s'.worstSeen = none) ∧
      (∀ b, s.worstSeen = some b → FVal.lt b.fvalue cl.fvalue → s'.worstSeen = some cl) ∧
      (∀ b, s.worstSeen = some b → ¬ FVal.lt b.fvalue cl.fvalue → s'.worstSeen = some b) := by
  unfold Sol.updateBest at h
  obtain ⟨c0, h0, h⟩ := Out.bind_eq_ok.1 h
  obtain ⟨ck, hk, h⟩ := Out.bind_eq_ok.1 h
  obtain ⟨med, hm, h⟩ := Out.bind_eq_ok.1 h
  obtain ⟨cl, hl, h⟩ := Out.bind_eq_ok.1 h
  injection h with h
  rw [at!_eq_ok'] at h0 hk hl
  refine ⟨c0, ck, cl, med, h0, hk, by rw [List.getLast?_eq_getElem?]; exact hl, hm, ?_⟩
  subst h
  refine ⟨?_, ?_, ?_, ?_, ?_, ?_, ?_, ?_, ?_⟩
  · simp only [decide_eq_true_eq]
  · intro h1 h2; simp [h1, h2]
  · intro h1 h2; simp [h1, h2]
  · intro b h1 h2; simp [h1, h2]
  · intro b h1 h2; simp [h1, h2]
  · intro h1 h2; simp [h1, h2]
  · intro h1 h2; simp [h1, h2]
  · intro b h1 h2; simp [h1, h2]
  · intro b h1 h2; simp [h1, h2]

theorem Strat.tell_ok {env : Env n} {s s' : Strat n} (h : s.tell env = .ok s') :
    ∃ s1 tS sol3 sol4, s.rank env = .ok s1 ∧
      (if s.p.tpa = 2 ∧ s.niter > 0 then s1.tpaUpdate else pure s1) =
        .ok { s1 with sol := { s1.sol with tpaS := tS } } ∧
      ({ s1.sol with tpaS := tS } : Sol n).updateBest = .ok sol3 ∧
      covarianceUpdate env.eig s.kind s.p s.es sol3 = .ok sol4 ∧
      Strat.tellFinish { s with sol := sol4 } = .ok s' := by
  unfold tell at h
  obtain ⟨s1, h1, h⟩ := Out.bind_eq_ok.1 h
  obtain ⟨s2, h2, h⟩ := Out.bind_eq_ok.1 h
  obtain ⟨sol3, h3, h⟩ := Out.bind_eq_ok.1 h
  obtain ⟨sol4, h4, h⟩ := Out.bind_eq_ok.1 h
  obtain ⟨cu, su, cs, e1⟩ := rank_frame h1
  have e2 : ∃ t, s2 = { s1 with sol := { s1.sol with tpaS := t } } := by
    split_ifs at h2 with ht
    · exact tpaUpdate_frame h2
    · injection h2 with h2; exact ⟨s1.sol.tpaS, by rw [← h2]⟩
  obtain ⟨t, e2⟩ := e2
  refine ⟨s1, t, sol3, sol4, h1, ?_, ?_, ?_, ?_⟩
  · rw [← e2, ← h2, e1]
  · rw [e2] at h3; exact h3
  · rw [e2, e1] at h4; exact h4
  · rw [e2, e1] at h; exact h

/-- The ranked population that `tell` leaves behind, without uncertainty handling. -/
theorem Strat.rank_ok {env : Env n} {s s' : Strat n} (huh : s.p.uh = false) (h : s.rank env = .ok s') :
    ∃ cs, stableSort candLt s.sol.cands = .ok cs ∧ s' = { s with sol := { s.sol with cands := cs } } := by
  unfold rank at h
  rw [if_neg (by simp [huh])] at h
  obtain ⟨sol, h1, h⟩ := Out.bind_eq_ok.1 h
  unfold Sol.sortCandidates at h1
  obtain ⟨cs, hc, h1⟩ := Out.bind_eq_ok.1 h1
  injection h with h
  injection h1 with h1
  exact ⟨cs, hc, by rw [← h, ← h1]⟩

theorem ranked_of_sorts {l out : List (Cand n)} (h : Sorts candLt l out) : Ranked l out :=
  ⟨h.perm, h.sorted, fun v => h.stable _ fun a _ b _ ha hb => by
    simp only [decide_eq_true_eq] at ha hb
    unfold candLt
    rw [ha, hb]
    exact FVal.lt_irrefl _⟩

/-- The first element of a ranked population is the earliest minimum of the population. -/
theorem firstMin_of_stableSort {l out : List (Cand n)} {c : Cand n}
    (h : stableSort candLt l = .ok out) (hc : out[0]? = some c) : FirstMin l c := by
  obtain ⟨hsw, hs⟩ := stableSort_eq_ok h
  obtain ⟨rest, rfl⟩ : ∃ rest, out = c :: rest := by
    cases out with
    | nil => simp at hc
    | cons a t => simp at hc; exact ⟨t, by rw [hc]⟩
  have hmin : ∀ d ∈ l, ¬ FVal.lt d.fvalue c.fvalue := by
    intro d hd
    have : d ∈ c :: rest := hs.perm.mem_iff.2 hd
    rcases List.mem_cons.1 this with rfl | hd'
    · exact FVal.lt_irrefl _
    · exact (List.pairwise_cons.1 hs.sorted).1 d hd'
  -- among the minimal elements of `l` the first is `c`
  classical
  let P : Cand n → Bool := fun d => decide (¬ FVal.lt c.fvalue d.fvalue)
  have hP := hs.stable P (by
    intro a ha b hb h1 h2 h3
    simp only [P, decide_eq_true_eq] at h1 h2
    have hcm : c ∈ l := hs.perm.mem_iff.1 (List.mem_cons_self)
    exact hsw.not_lt_trans hb hcm ha h2 (hmin a ha) h3)
  have hPc : P c = true := by simp [P, FVal.lt_irrefl]
  rw [List.filter_cons_of_pos hPc] at hP
  have : l.find? P = some c := by
    rw [← List.head?_filter, ← hP]; rfl
  obtain ⟨_, pre, post, h1, h2⟩ := List.find?_eq_some_iff_append.1 this
  refine ⟨pre, post, h1, ?_, ?_⟩
  · intro d hd
    have := h2 d hd
    simpa [P] using this
  · intro d hd
    exact hmin d (by rw [h1]; simp [hd])

theorem largest_of_stableSort {l out : List (Cand n)} {c : Cand n}
    (h : stableSort candLt l = .ok out) (hc : out.getLast? = some c) : Largest l c := by
  obtain ⟨hsw, hs⟩ := stableSort_eq_ok h
  obtain ⟨ys, rfl⟩ := List.getLast?_eq_some_iff.1 hc
  refine ⟨hs.perm.mem_iff.1 (by simp), fun d hd => ?_⟩
  have : d ∈ ys ++ [c] := hs.perm.mem_iff.2 hd
  rcases List.mem_append.1 this with h1 | h1
  · exact (List.pairwise_append.1 hs.sorted).2.2 d h1 c (by simp)
  · rw [List.mem_singleton.1 h1]; exact FVal.lt_irrefl _

/-- `push_back` then removal of the first element keeps the last `m` elements. -/
theorem lastN_push {α : Type} {m : ℕ} {l : List α} {a : α} (hm : 0 < m) :
    lastN m (l ++ [a]) = if (lastN m l ++ [a]).length > m then (lastN m l ++ [a]).tail
      else lastN m l ++ [a] := by
  unfold lastN
  by_cases h : l.length < m
  · have e1 : (l ++ [a]).length - m = 0 := by simp; omega
    have e2 : l.length - m = 0 := by omega
    rw [e1, e2, if_neg (by simp; omega)]
    simp
  · have e3 : (List.drop (l.length - m) l).length = m := by rw [List.length_drop]; omega
    rw [if_pos (by simp [e3])]
    have hne : List.drop (l.length - m) l ≠ [] := by
      intro h'; rw [h'] at e3; simp at e3; omega
    rw [← List.drop_append_of_le_length (by omega), List.tail_drop]
    congr 1
    simp; omega

theorem length_lastN {α : Type} (m : ℕ) (l : List α) : (lastN m l).length = min m l.length := by
  unfold lastN; rw [List.length_drop]; omega

theorem pushBounded_lastN {α : Type} {m : ℕ} {l : List α} {a : α} (hm : 0 < m) :
    Sol.pushBounded m (lastN m l) a = lastN m (l ++ [a]) := by
  rw [lastN_push hm]; rfl

/-- What `tell` may change. -/
theorem Strat.tell_frame {env : Env n} {s s' : Strat n} (h : s.tell env = .ok s') :
    ∃ cs cu su ts sol3, (s.p.uh = false → stableSort candLt s.sol.cands = .ok cs) ∧
      ({ s.sol with cands := cs, candsUh := cu, suh := su, tpaS := ts } : Sol n).updateBest = .ok sol3 ∧
      ∃ csq hc sc ps hs pc cov sep v sg xp xm mx mn lv le, s' = { s with sol := { sol3 with
        csqinv := csq, hasCsq := hc, sepcsqinv := sc, psigma := ps, hsig := hs, pc := pc, cov := cov
        sepcov := sep, v := v, sigma := sg, xmeanPrev := xp, xmean := xm
        maxEigenv := mx, minEigenv := mn, leigenvalues := lv, leigenvectors := le, hasLeig := true } } := by
  obtain ⟨s1, tS, sol3, sol4, h1, _, h3, h4, h5⟩ := tell_ok h
  obtain ⟨csq, hc, sc, ps, hs, pc, cov, sep, v, sg, xp, xm, e4⟩ := covarianceUpdate_frame h4
  obtain ⟨sg', mx, mn, lv, le, e5⟩ := tellFinish_frame h5
  obtain ⟨cu, su, cs, e1⟩ := rank_frame h1
  refine ⟨cs, cu, su, tS, sol3, ?_, ?_, csq, hc, sc, ps, hs, pc, cov, sep, v, sg', xp, xm, mx, mn, lv, le, ?_⟩
  · intro huh
    obtain ⟨cs', hcs', e⟩ := rank_ok huh h1
    rw [hcs']
    have : s1.sol.cands = cs := by rw [e1]
    rw [← this, e]
  · rw [e1] at h3; exact h3
  · rw [e5, e4]

theorem Strat.stop_frame {env : Env n} {s s' : Strat n} {b : Bool} (h : s.stop env = .ok (b, s')) :
    ∃ k r, s' = { s with npf := k, sol := { s.sol with runStatus := r } } := by
  unfold stop at h
  by_cases h1 : s.sol.runStatus < 0
  · rw [if_pos h1] at h; injection h with h; injection h with _ h; exact ⟨s.npf, s.sol.runStatus, h.symm⟩
  rw [if_neg h1] at h
  simp only at h
  by_cases h2 : env.pfunc s.npf s.p s.sol ≠ 0
  · rw [if_pos h2] at h; injection h with h; injection h with _ h
    exact ⟨s.npf + 1, s.sol.runStatus, h.symm⟩
  rw [if_neg h2] at h
  by_cases h3 : s.niter = 0
  · rw [if_pos h3] at h; injection h with h; injection h with _ h
    exact ⟨s.npf + 1, s.sol.runStatus, h.symm⟩
  rw [if_neg h3] at h
  obtain ⟨c, _, h⟩ := Out.bind_eq_ok.1 h
  injection h with h; injection h with _ h
  exact ⟨s.npf + 1, c, h.symm⟩

end Libcmaes
