import Verif.Lemmas.Rerank
import Verif.Lemmas.Run
import Verif.Lemmas.Best
import Verif.Lemmas.Total

/-! # The points of the population that `tell` works on -/

namespace Libcmaes

open Spec

variable {n : ℕ}

/-- After `eval` of a whole population each candidate is at one of the given points or is the reference of
elitism. -/
theorem eval_points {env : Env n} {s s' : Strat n} {cols phen : List (Vec n)} (hp : GoodParams s.p)
    (hc : s.sol.cands.length = s.p.lambda) (hl : cols.length = s.p.lambda) (hl' : phen.length = s.p.lambda)
    (h : s.eval env cols phen = .ok s') :
    s'.sol.cands.length = s.p.lambda ∧ (∀ c ∈ s'.sol.cands, c.x ∈ cols ∨ s.elitistRef = some c) := by
  have h1 : cols.length ≤ s.sol.cands.length := by omega
  have hlen := Strat.evaluated_length env s cols phen
  have hev : ∀ c ∈ (s.evaluated env cols phen).sol.cands, c.x ∈ cols := by
    intro c hcc
    obtain ⟨r, hr⟩ := List.mem_iff_getElem?.1 hcc
    have hlt := (List.getElem?_eq_some_iff.1 hr).1
    have hev := Strat.evaluated_cands (env := env) (phen := phen) h1 r
    have hrc : r < cols.length := by omega
    rw [if_pos hrc, hr] at hev
    injection hev with hev
    rw [hev]
    show colX cols r ∈ cols
    unfold colX
    rw [List.getD_eq_getElem?_getD, List.getElem?_eq_getElem hrc]
    exact List.getElem_mem hrc
  have key : ∀ t t' : Strat n, t.reinject cols.length = .ok t' →
      t.sol.cands = (s.evaluated env cols phen).sol.cands → t.elitistRef = s.elitistRef →
      t'.sol.cands.length = s.p.lambda ∧ (∀ c ∈ t'.sol.cands, c.x ∈ cols ∨ s.elitistRef = some c) := by
    intro t t' ht htc hte
    rcases Strat.reinject_frame ht with e | ⟨c0, h0, _, e⟩
    · rw [e, htc]
      exact ⟨by rw [hlen, hc], fun c h => Or.inl (hev c h)⟩
    · rw [e]
      refine ⟨?_, fun c h => ?_⟩
      · show (List.set _ _ _).length = _
        rw [List.length_set, htc, hlen, hc]
      · rcases List.mem_or_eq_of_mem_set h with h | h
        · rw [htc] at h; exact Or.inl (hev c h)
        · rw [h, ← hte]; exact Or.inr h0
  by_cases huh : s.p.uh = true
  · obtain ⟨a1, a2, -⟩ := lambdaReev_good env s.p s.nu hp
    rw [eval_uh_eq huh h1 (fun _ => by omega) (by omega)] at h
    obtain ⟨s3, h3, h⟩ := Out.bind_eq_ok.1 h
    injection h with h
    rw [← h]
    have := key _ _ h3 rfl rfl
    exact this
  · obtain ⟨s3, h3, e⟩ := Strat.eval_ok (by simpa using huh) h
    rw [e]
    have := key _ _ h3 rfl rfl
    exact this

/-- `tell` after it rearranges the population. -/
theorem tell_perm {env : Env n} {s s2 s3 : Strat n} {cols phen : List (Vec n)} (hp : GoodParams s.p)
    (hc : s.sol.cands.length = s.p.lambda) (hl : cols.length = s.p.lambda) (hl' : phen.length = s.p.lambda)
    (h : s.eval env cols phen = .ok s2) (h' : s2.tell env = .ok s3) : s3.sol.cands.Perm s2.sol.cands := by
  by_cases huh : s.p.uh = true
  · exact rerank_perm hp huh hc hl hl' h h'
  · obtain ⟨c, nu, nzuh, lr, cu, cs, e, _⟩ := Strat.eval_frame h
    obtain ⟨cs', cu', su, ts, sol3, hs, hb, csq, hc, sc, ps, hs', pc, cov, sep, v, sg, xp, xm, mx, mn, lv, le,
      e3⟩ := Strat.tell_frame h'
    obtain ⟨c0, ck, cl, med, _, _, _, _, eb, _⟩ := Sol.updateBest_ok hb
    have hcs := hs (by rw [e]; simpa using huh)
    have hperm := (stableSort_eq_ok hcs).2.perm
    rw [e3, eb]
    exact hperm

/-- The parts of a turn, and the points of its population. -/
theorem generation_points {env : Env n} {s s' : Strat n} (hp : GoodParams s.p)
    (hc : s.sol.cands.length = s.p.lambda) (h : s.generation env = .ok s') :
    ∃ pop s1 phen s2 s3, s.ask env = .ok (pop, s1) ∧ s1.phenoCols pop = .ok phen ∧
      s1.eval env pop phen = .ok s2 ∧ s2.tell env = .ok s3 ∧ s' = s3.incIter ∧
      s'.sol.cands.Perm s2.sol.cands ∧ s'.sol.cands.length = s.p.lambda ∧
      ∀ c ∈ s'.sol.cands, c.x ∈ pop ∨ s.elitistRef = some c := by
  unfold Strat.generation at h
  obtain ⟨⟨pop, s1⟩, ha, h⟩ := Out.bind_eq_ok.1 h
  obtain ⟨phen, hph, h⟩ := Out.bind_eq_ok.1 h
  obtain ⟨s2, he, h⟩ := Out.bind_eq_ok.1 h
  obtain ⟨s3, ht, h⟩ := Out.bind_eq_ok.1 h
  injection h with h
  obtain ⟨⟨es, ei, ue, c, nz, x1, x2, p1, p2, e1⟩, hpl⟩ := Strat.ask_frame ha
  have hp1 : s1.p = s.p := by rw [e1]
  have hlen := Out.mapM_length hph
  have hc1 : s1.sol.cands.length = s1.p.lambda := by rw [e1]; exact hc
  have hl1 : pop.length = s1.p.lambda := by rw [hp1]; exact hpl
  have hl2 : phen.length = s1.p.lambda := by rw [← hlen]; exact hl1
  obtain ⟨g1, g2⟩ := eval_points (hp1 ▸ hp) hc1 hl1 hl2 he
  have hperm := tell_perm (hp1 ▸ hp) hc1 hl1 hl2 he ht
  have hs : s'.sol.cands = s3.sol.cands := by rw [← h]; rfl
  refine ⟨pop, s1, phen, s2, s3, ha, hph, he, ht, h.symm, by rw [hs]; exact hperm,
    by rw [hs, hperm.length_eq, g1, hp1], fun c hcc => ?_⟩
  rw [hs] at hcc
  rcases g2 c (hperm.mem_iff.1 hcc) with h | h
  · exact Or.inl h
  · refine Or.inr ?_
    rw [e1] at h
    exact h

end Libcmaes
