import Verif.Lemmas.Begin
import Verif.Lemmas.Witness

/-!
# Runs on a flat objective
-/

namespace Libcmaes

open Spec

variable {n : ℕ}

theorem genRun_cons {env : Env n} {s s1 t : Strat n} {k : ℕ} (h : s.generation env = .ok s1)
    (hr : GenRun env s1 k t) : GenRun env s (k + 1) t := by
  induction hr with
  | refl => exact .turn (.refl _) h
  | stop _ i ih => exact .stop ih i
  | turn _ i ih => exact .turn ih i

/-- Generations without any test are a run. -/
theorem generations_genRun {env : Env n} {s t : Strat n} (k : ℕ) (h : s.generations env k = .ok t) :
    GenRun env s k t ∧ t.npf = s.npf ∧ t.sol.runStatus = s.sol.runStatus := by
  induction k generalizing s with
  | zero => injection h with h; subst h; exact ⟨.refl _, rfl, rfl⟩
  | succ k ih =>
    unfold Strat.generations at h
    obtain ⟨s1, h1, h⟩ := Out.bind_eq_ok.1 h
    obtain ⟨a, b, c⟩ := ih h
    obtain ⟨d, e⟩ := generation_npf h1
    exact ⟨genRun_cons h1 a, b.trans d, c.trans e⟩

/-- All recorded values are `v`. -/
structure Flat (v : FVal) (s : Strat n) : Prop where
  bestSeen : ∀ c, s.sol.bestSeen = some c → c.fvalue = v
  initialCand : ∀ c, s.sol.initialCand = some c → c.fvalue = v
  best : ∀ c ∈ s.sol.bestHist, c.fvalue = v
  kbest : ∀ c ∈ s.sol.kBestHist, c.fvalue = v

theorem Flat.generation {v : FVal} {env : Env n} {s s' : Strat n} (hR : Flat v s) (hL : Live s)
    (hv : ∀ k y, negIf s.negate (env.f k y) = v) (h : s.generation env = .ok s') : Flat v s' := by
  obtain ⟨tr, hrun⟩ := Strat.generation_run h
  obtain ⟨r1, r2, r3, r4, r5, r6, r7, r8, r9, r10⟩ := run_p hrun
  unfold Strat.generation at h
  obtain ⟨⟨pop, s1⟩, ha, h⟩ := Out.bind_eq_ok.1 h
  obtain ⟨phen, hp, h⟩ := Out.bind_eq_ok.1 h
  obtain ⟨s2, he, h⟩ := Out.bind_eq_ok.1 h
  obtain ⟨s3, ht, h⟩ := Out.bind_eq_ok.1 h
  injection h with h
  subst h
  obtain ⟨⟨es, ei, ue, c, nz, x1, x2, p1, p2, e1⟩, hpl⟩ := Strat.ask_frame ha
  obtain ⟨c2, nu, nzuh, lr, cu, cs, e2, hcs, _⟩ := Strat.eval_frame he
  have hval : ∀ d ∈ s2.sol.cands, d.fvalue = v := by
    intro d hd
    rcases Strat.eval_values (by rw [e1]; exact hL.uh) (by rw [hpl, e1]; exact hL.cands.le) he d hd with
      ⟨j, y, e, _⟩ | ⟨_, e⟩
    · rw [e, e1]; exact hv j y
    · rcases elitistRef_mem e with h | h
      · exact hR.bestSeen d (by rw [e1] at h; exact h)
      · exact hR.initialCand d (by rw [e1] at h; exact h)
  obtain ⟨cs', cu', su, ts, sol3, hs, hb, csq, hc, sc, ps, hs', pc, cov, sep, vv, sg, xp, xm, mx, mn, lv, le,
    e3⟩ := Strat.tell_frame ht
  have hsort := hs (by rw [e2, e1]; exact hL.uh)
  have hperm := (stableSort_eq_ok hsort).2.perm
  have hval' : ∀ d ∈ cs', d.fvalue = v := fun d hd => hval d (hperm.mem_iff.1 hd)
  have hseen := (updateBest_seen hb).2
  obtain ⟨c0, ck, cl, med, h0, hk, hl, hmed, eb, _⟩ := Sol.updateBest_ok hb
  have v0 : c0.fvalue = v := hval' c0 (List.mem_of_getElem? h0)
  have vk : ck.fvalue = v := hval' ck (List.mem_of_getElem? hk)
  have eh : s2.sol.bestHist = s.sol.bestHist := by rw [e2, e1]
  have ekh : s2.sol.kBestHist = s.sol.kBestHist := by rw [e2, e1]
  have ebs : s2.sol.bestSeen = s.sol.bestSeen := by rw [e2, e1]
  refine ⟨?_, ?_, ?_, ?_⟩
  · intro d hd
    have : s3.incIter.sol.bestSeen = sol3.bestSeen := by rw [e3]; rfl
    rw [this] at hd
    rcases hseen d hd with h | h
    · exact hval' d h
    · exact hR.bestSeen d (ebs ▸ h)
  · intro d hd; rw [r10] at hd; exact hR.initialCand d hd
  · intro d hd
    have e : s3.incIter.sol.bestHist = sol3.bestHist := by rw [e3]; rfl
    rw [e, eb] at hd
    have hd' : d ∈ s2.sol.bestHist ++ [c0] := by
      simp only at hd
      split_ifs at hd
      · exact List.mem_of_mem_tail hd
      · exact hd
    rcases List.mem_append.1 hd' with h | h
    · exact hR.best d (eh ▸ h)
    · rw [List.mem_singleton.1 h]; exact v0
  · intro d hd
    have e : s3.incIter.sol.kBestHist = sol3.kBestHist := by rw [e3]; rfl
    rw [e, eb] at hd
    have hd' : d ∈ s2.sol.kBestHist ++ [ck] := by
      simp only at hd
      split_ifs at hd
      · exact List.mem_of_mem_tail hd
      · exact hd
    rcases List.mem_append.1 hd' with h | h
    · exact hR.kbest d (ekh ▸ h)
    · rw [List.mem_singleton.1 h]; exact vk

theorem genRun_flat {v : FVal} {env : Env n} {s t : Strat n} {k : ℕ} (h : GenRun env s k t) (hL : Live s)
    (hR : Recorded s) (hF : Flat v s) (hv : Val v) (hf : ∀ k y, negIf s.negate (env.f k y) = v) : Flat v t := by
  induction h with
  | refl => exact hF
  | stop _ i ih =>
    obtain ⟨k, r, e⟩ := Strat.stop_frame i
    rw [e]
    exact ⟨ih.1, ih.2, ih.3, ih.4⟩
  | turn j i ih =>
    obtain ⟨a, _, c⟩ := genRun_live j hL hR (fun k y => by rw [hf]; exact hv)
    exact ih.generation a (by rw [c]; exact hf) i

theorem flat_new {v : FVal} {env : Env n} {kind : CovKind} {p : Params n} {s : Strat n}
    (h : Strat.new env kind p = .ok s) : Flat v s := by
  obtain ⟨h1, h2, h3, h4, h5, h6, h7, h8, h9, h10, h11, h12, h13, h14, h15, h16, h17, h18, h19, h20⟩ :=
    Strat.new_ok h
  refine ⟨?_, ?_, ?_, ?_⟩
  · intro c hc; rw [h6.bestSeen] at hc; cases hc
  · intro c hc; rw [h17] at hc; cases hc
  · rw [h6.bestHist]; simp
  · rw [h6.kBestHist]; simp

/-- On records that are all equal, the criterion counts every iteration. -/
theorem equalCount_flat {v : FVal} {s : Strat n} (hF : Flat v s) (hv : Val v) {k : ℕ} (hk : k ≤ s.sol.bestHist.length)
    (hl : s.sol.kBestHist.length = s.sol.bestHist.length) : equalCount k s.sol = k := by
  unfold equalCount
  rw [List.countP_eq_length.2]
  · simp [lastN, hl]; omega
  · rintro ⟨a, b⟩ hab
    obtain ⟨ha, hb⟩ := List.of_mem_zip hab
    have ea := hF.best a (List.mem_of_mem_drop ha)
    have eb := hF.kbest b (List.mem_of_mem_drop hb)
    simp only [ea, eb, decide_eq_true_eq]
    rcases hv with rfl | ⟨r, _, rfl⟩ <;> simp [FVal.eq]

end Libcmaes
