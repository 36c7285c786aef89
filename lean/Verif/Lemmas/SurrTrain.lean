import Verif.Lemmas.SurrAcmWitness

/-! # When the model of a surrogate strategy is trained -/

namespace Libcmaes

open Spec

namespace Surr

variable {n : ℕ} {M : Type}

/-- The solution as it is while the model is trained: the iteration is counted afterwards. -/
def told (s : Sol n) : Sol n := { s with niter := s.niter - 1 }

theorem acmGeneration_model {env : Env n} {sf : SurrFuncs n M} {fuel : ℕ} {t t' : Surr n M}
    (h : t.acmGeneration env sf fuel = .ok (some t')) (hf : t'.full = true) :
    (∃ m, sf.train m t'.tset (told t'.s.sol) = .ok t'.m) ∧
      ({ t' with s := { t'.s with sol := told t'.s.sol } } : Surr n M).computeError sf t'.tset = .ok t'.trainErr := by
  unfold acmGeneration at h
  obtain ⟨⟨pop, t1⟩, _, h⟩ := Out.bind_eq_ok.1 h
  obtain ⟨phen, _, h⟩ := Out.bind_eq_ok.1 h
  obtain ⟨o, _, h⟩ := Out.bind_eq_ok.1 h
  rcases o with _ | t2
  · injection h with h; cases h
  simp only at h
  obtain ⟨t3, htl, h⟩ := Out.bind_eq_ok.1 h
  have hfin := Option.some.inj (Except.ok.inj h)
  clear h
  unfold acmTell at htl
  obtain ⟨sol1, _, htl⟩ := Out.bind_eq_ok.1 htl
  obtain ⟨sol2, _, htl⟩ := Out.bind_eq_ok.1 htl
  obtain ⟨sol3, _, htl⟩ := Out.bind_eq_ok.1 htl
  obtain ⟨s4, _, htl⟩ := Out.bind_eq_ok.1 htl
  obtain ⟨b, hb, htl⟩ := Out.bind_eq_ok.1 htl
  have hts : t3.tset = t2.tset ∧ t3.l = t2.l := by
    split_ifs at htl
    · obtain ⟨m, _, htl⟩ := Out.bind_eq_ok.1 htl
      obtain ⟨e, _, htl⟩ := Out.bind_eq_ok.1 htl
      injection htl with htl
      rw [← htl]
      exact ⟨rfl, rfl⟩
    · injection htl with htl
      rw [← htl]
      exact ⟨rfl, rfl⟩
  have hf2 : ({ t2 with s := s4 } : Surr n M).full = true := by
    rw [← hf, ← hfin]
    unfold full
    simp only
    rw [hts.1, hts.2]
  have hbt : b = true := by
    unfold acmDoTrain at hb
    rw [if_pos hf2] at hb
    exact (Except.ok.inj hb).symm
  subst hbt
  rw [if_pos rfl] at htl
  obtain ⟨m, hm, htl⟩ := Out.bind_eq_ok.1 htl
  obtain ⟨e, he, htl⟩ := Out.bind_eq_ok.1 htl
  injection htl with htl
  subst htl
  subst hfin
  exact ⟨⟨t2.m, hm⟩, he⟩

theorem simpleEval_model {env : Env n} {sf : SurrFuncs n M} {t t' : Surr n M} {cols phen : List (Vec n)}
    (honly : OnlyValues sf) (h : t.simpleEval env sf cols phen = .ok t') : t'.m = t.m := by
  unfold simpleEval at h
  obtain ⟨b, _, h⟩ := Out.bind_eq_ok.1 h
  cases b with
  | false =>
    rw [if_neg (by simp)] at h
    obtain ⟨cs, e, _⟩ := exploitFold_frame honly _ h
    rw [e]; rfl
  | true =>
    rw [if_pos rfl] at h
    obtain ⟨t1, h1, h⟩ := Out.bind_eq_ok.1 h
    have hm : t1.m = t.m := by
      obtain ⟨g1, g2⟩ := simpleTest_ok h1
      by_cases hc : (t.setCrit 10 true).s.niter ≠ 0 ∧ (t.setCrit 10 true).full = true
      · obtain ⟨e, _, k, he, _⟩ := g1 hc
        rw [he]; rfl
      · rw [g2 hc]; rfl
    unfold evalAndCollect at h
    obtain ⟨s, _, h⟩ := Out.bind_eq_ok.1 h
    injection h with h
    rw [foldl_add] at h
    rw [← h]
    exact hm

/-- The condition for training in the simple strategy, in terms of the state afterwards and the number of the
generation. -/
def Trains (t' : Surr n M) (k : ℕ) : Prop :=
  t'.full = true ∧ (t'.exploit = false ∨ k = 0 ∨ t'.nsteps ∣ (k : ℤ))

theorem simpleGeneration_model {env : Env n} {sf : SurrFuncs n M} {t t' : Surr n M} (honly : OnlyValues sf)
    (h : t.simpleGeneration env sf = .ok t') :
    (Trains t' t.s.niter → sf.train t.m t'.tset (told t'.s.sol) = .ok t'.m) ∧
      (¬ Trains t' t.s.niter → t'.m = t.m) := by
  unfold simpleGeneration at h
  obtain ⟨⟨pop, s1⟩, hask, h⟩ := Out.bind_eq_ok.1 h
  obtain ⟨phen, hph, h⟩ := Out.bind_eq_ok.1 h
  obtain ⟨t2, hev, h⟩ := Out.bind_eq_ok.1 h
  obtain ⟨t3, htl, h⟩ := Out.bind_eq_ok.1 h
  injection h with h
  have hm2 := simpleEval_model honly hev
  change t2.m = t.m at hm2
  obtain ⟨⟨es, ei, ue, c0, nz, x1, x2, p1, p2, e1⟩, hpl⟩ := Strat.ask_frame hask
  have hn2 : t2.s.niter = t.s.niter := by
    have h1 : s1.niter = t.s.niter := by rw [e1]
    rw [← h1]
    unfold simpleEval at hev
    obtain ⟨b, _, hev⟩ := Out.bind_eq_ok.1 hev
    cases b with
    | false =>
      rw [if_neg (by simp)] at hev
      obtain ⟨cs, e, _⟩ := exploitFold_frame honly _ hev
      rw [e]; rfl
    | true =>
      rw [if_pos rfl] at hev
      obtain ⟨t1, ht1, hev⟩ := Out.bind_eq_ok.1 hev
      have hm : t1.s.niter = s1.niter := by
        obtain ⟨g1, g2⟩ := simpleTest_ok ht1
        by_cases hc : (({ t with s := s1 } : Surr n M).setCrit 10 true).s.niter ≠ 0 ∧
            (({ t with s := s1 } : Surr n M).setCrit 10 true).full = true
        · obtain ⟨e, _, k, he, _⟩ := g1 hc
          rw [he]; rfl
        · rw [g2 hc]; rfl
      unfold evalAndCollect at hev
      obtain ⟨s2, hs2, hev⟩ := Out.bind_eq_ok.1 hev
      injection hev with hev
      rw [foldl_add] at hev
      obtain ⟨c, nu, nzuh, lr, cu, cs, e6, _⟩ := Strat.eval_frame hs2
      rw [← hev]
      show s2.niter = _
      rw [e6]
      exact hm
  unfold simpleTell at htl
  obtain ⟨s3, hs3, htl⟩ := Out.bind_eq_ok.1 htl
  obtain ⟨b, hb, htl⟩ := Out.bind_eq_ok.1 htl
  have hn3 : s3.niter = t.s.niter := by
    obtain ⟨cs', cu', su, ts, sol3, hsort, hb', csq, hc, sc, ps, hs', pc, cov, sep, v, sg, xp, xm, mx, mn, lv, le,
      e'⟩ := Strat.tell_frame hs3
    rw [e']
    exact hn2
  have hfr : t'.tset = t2.tset ∧ t'.l = t2.l ∧ t'.exploit = t2.exploit ∧ t'.nsteps = t2.nsteps := by
    rw [← h]
    split_ifs at htl
    · obtain ⟨m, _, htl⟩ := Out.bind_eq_ok.1 htl
      injection htl with htl
      rw [← htl]
      exact ⟨rfl, rfl, rfl, rfl⟩
    · injection htl with htl
      rw [← htl]
      exact ⟨rfl, rfl, rfl, rfl⟩
  obtain ⟨f1, f2, f3, f4⟩ := hfr
  have hT : Trains t' t.s.niter ↔ b = true := by
    unfold Trains
    unfold simpleDoTrain at hb
    have hfu : t'.full = ({ t2 with s := s3 } : Surr n M).full := by
      unfold full
      simp only
      rw [f1, f2]
    rw [hfu, f3, f4]
    simp only [hn3] at hb
    generalize ({ t2 with s := s3 } : Surr n M).full = fu at hb ⊢
    by_cases hx : (!t2.exploit && fu) = true
    · rw [if_pos hx] at hb
      have hb := Except.ok.inj hb
      rw [Bool.and_eq_true, Bool.not_eq_true'] at hx
      rw [← hb]
      exact ⟨fun _ => rfl, fun _ => ⟨hx.2, Or.inl hx.1⟩⟩
    · rw [if_neg hx] at hb
      rw [Bool.and_eq_true, Bool.not_eq_true', not_and] at hx
      by_cases h0 : t.s.niter = 0
      · rw [if_pos h0] at hb
        have hb := Except.ok.inj hb
        rw [← hb]
        exact ⟨fun h => h.1, fun h => ⟨h, Or.inr (Or.inl h0)⟩⟩
      · rw [if_neg h0] at hb
        split_ifs at hb with hk
        have hb := Except.ok.inj hb
        rw [← hb, Bool.and_eq_true, decide_eq_true_eq]
        constructor
        · rintro ⟨a1, a2 | a2 | a2⟩
          · exact absurd a1 (hx a2)
          · exact absurd a2 h0
          · exact ⟨Int.tmod_eq_zero_of_dvd a2, a1⟩
        · rintro ⟨a1, a2⟩
          exact ⟨a2, Or.inr (Or.inr (Int.dvd_of_tmod_eq_zero a1))⟩
  rw [hT]
  cases b with
  | true =>
    rw [if_pos rfl] at htl
    obtain ⟨m, hm, htl⟩ := Out.bind_eq_ok.1 htl
    injection htl with htl
    refine ⟨fun _ => ?_, fun h => absurd rfl h⟩
    subst htl
    subst h
    rw [← hm2]
    exact hm
  | false =>
    rw [if_neg (by simp)] at htl
    injection htl with htl
    refine ⟨(fun h => by cases h), fun _ => ?_⟩
    subst htl
    subst h
    exact hm2

end Surr

end Libcmaes
