import Verif.Lemmas.RestartRun
import Verif.Lemmas.Witness

/-!
# The default set-up with restarts
-/

namespace Libcmaes

open Spec

variable {n : ℕ}

/-- What the constructor sets for the stopping criteria and the budget. -/
theorem Params.make_limits {x0 : Vec n} {sigma : ℝ} {lambda : ℤ} {seed clock : ℕ} {gp : GenoPheno} {p : Params n}
    (h : Params.make x0 sigma lambda seed clock gp = .ok p) :
    p.stoppingCrit = [] ∧ p.withEdm = false ∧ p.maxFevals = -1 ∧ p.lazyUpdate = false := by
  unfold Params.make at h
  obtain ⟨l, -, h⟩ := Out.bind_eq_ok.1 h
  obtain ⟨mu, w, muw, cs, cc, c1, cm, ds, fs, fc, ch, lv, rl, al, e⟩ := initializeParameters_frame h
  rw [e]; exact ⟨rfl, rfl, rfl, rfl⟩

theorem Params.make_lambda_le {x0 : Vec n} {sigma : ℝ} {lambda : ℤ} {seed clock : ℕ} {gp : GenoPheno} {p : Params n}
    (hl : lambda < 2) (h : Params.make x0 sigma lambda seed clock gp = .ok p) : p.lambda * 2 ≤ (n + 2) ^ 2 := by
  unfold Params.make at h
  obtain ⟨l, h1, h⟩ := Out.bind_eq_ok.1 h
  have hsp := initializeParameters_spec h
  rw [hsp.lambda]
  exact default_lambda_le hsp.n_pos hl h1

/-- The default set-up, full or separable, with any number of restarts: the first run has sound settings. -/
theorem default_ready {env : Env n} {kind : CovKind} {x0 : Vec n} {sigma : ℝ} {seed clock : ℕ} {p q : Params n}
    (R : ℕ) (hk : kind ≠ .vd) (hp : Params.make x0 sigma (-1) seed clock GenoPheno.plain = .ok p)
    (hq : q = p ∨ q = p.setSep) :
    UsualRun kind { q with nrestarts := R } ∧
      ∃ s, Strat.new env kind { q with nrestarts := R } = .ok s ∧ RunReady kind s := by
  obtain ⟨u1, u2, u3, u4, u5, u6, u7, u8, u9, u10, u11, u12, u13, u14⟩ := Params.make_plain hp
  obtain ⟨l1, l2, l3, l4⟩ := Params.make_limits hp
  obtain ⟨f1, f2⟩ := Params.make_flags hp
  obtain ⟨s1, s2⟩ := strictRates_default (by norm_num) hp
  have hq' : Configured q ∧ StrictRates q ∧ q.vd = false ∧ q.lazyUpdate = false ∧ q.withGradient = false ∧
      q.uh = false ∧ q.tpa ≠ 2 ∧ q.gp = GenoPheno.plain ∧ q.stoppingCrit = [] ∧ q.withEdm = false ∧
      q.initialElitistOnRestart = false := by
    rcases hq with rfl | rfl
    · exact ⟨.make hp, s1, f2, l4, u2, u1, u3, u10, l1, l2, u6⟩
    · exact ⟨.sep (.make hp) f1 f2, s2, f2, l4, u2, u1, u3, u10, l1, l2, u6⟩
  obtain ⟨q1, q2, q3, q4, q5, q6, q7, q8, q9, q10, q11⟩ := hq'
  have hu : UsualRun kind { q with nrestarts := R } := ⟨.other q1
      ⟨rfl, rfl, rfl, rfl, rfl, rfl, rfl, rfl, rfl, rfl, rfl, rfl, rfl, rfl, rfl, rfl, rfl⟩,
    ⟨q2.1, q2.2⟩, hk, q3, fun _ => q4, q5, q6, q7⟩
  obtain ⟨s, hs⟩ := new_plain (env := env) (kind := kind) (p := { q with nrestarts := R }) q8 hu.configured.good.1
  refine ⟨hu, s, hs, runReady_new hu.good hs ?_ q10 q11 ⟨by decide, ?_⟩ ?_ ?_⟩
  · show (q.stoppingCrit.map Prod.fst).Nodup; rw [q9]; simp
  · show ¬ _ ∈ q.stoppingCrit; rw [q9]; simp
  · intro x; show ∃ y : Vec n, phenoV q.gp x = .ok y; rw [q8, phenoV_plain]; exact ⟨_, rfl⟩
  · intro x; show ∃ y : Vec n, scaleToInternalV q.gp x = .ok y; rw [q8]; exact ⟨x, rfl⟩

/-- The default set-up with one restart makes two runs, with sound settings. -/
theorem default_two_runs {env : Env n} {kind : CovKind} {x0 : Vec n} {sigma : ℝ} {seed clock : ℕ} {p q : Params n}
    (hk : kind ≠ .vd) (hv : ∀ k y, Val (env.f k y))
    (hp : Params.make x0 sigma (-1) seed clock GenoPheno.plain = .ok p) (hq : q = p ∨ q = p.setSep) :
    ∃ s s' b r1 r2, Strat.new env kind { q with nrestarts := 2 } = .ok s ∧
      (∃ N, ∀ fuel, N ≤ fuel → s.ipopOptimize env fuel = .ok (some (s', b))) ∧
      History env s [r1, r2] s' ∧ IpopRuns { q with nrestarts := 2 } s s' [r1, r2] ∧ b = bestOf none [r1, r2] ∧
      RunReady kind r1.start ∧ RunReady kind r2.start ∧ r1.start.p.maximize = false ∧
      r2.start.p.maximize = false := by
  obtain ⟨hu, s, hs, hR⟩ := default_ready (env := env) 2 hk hp hq
  have hsp := (begins_new hs).params
  have hql : q.lambda = p.lambda := by rcases hq with rfl | rfl <;> rfl
  have hqm : q.maximize = false := by
    have := (Params.make_plain hp).2.2.2.2.2.2.2.1
    rcases hq with rfl | rfl <;> exact this
  have hqf : q.maxFevals = -1 := by
    have := (Params.make_limits hp).2.2.1
    rcases hq with rfl | rfl <;> exact this
  have hvs : ValObjective env s.p := by
    intro k y
    have : s.p.maximize = false := by rw [hsp]; exact hqm
    rw [this]; exact hv k y
  have hle := Params.make_lambda_le (by norm_num) hp
  obtain ⟨s', b, h⟩ := ipopLoop_total (env := env) 2 none hR hvs (by
    intro i hi r hr1 hr2
    refine defaultRates_strict hr1 ?_
    have : i = 0 := by omega
    subst this
    have hl : s.p.lambda = p.lambda := by rw [hsp]; exact hql
    rw [hr2, hl]; omega)
  have hn2 : s.p.nrestarts = 2 := by rw [hsp]
  have h' : ∀ fuel, ⌈autoLimit s.p⌉₊ + 1 ≤ fuel → s.ipopOptimize env fuel = .ok (some (s', b)) := by
    intro fuel hf
    unfold Strat.ipopOptimize
    rw [hn2]; exact h fuel hf
  obtain ⟨runs, hH, hI, hb⟩ := ipop_runs hu.configured.good.1 hs (h' _ le_rfl)
  have hl2 : runs.length = 2 := by
    rcases hI.enough with e | ⟨e, _⟩
    · exact e
    · replace e : 0 < q.maxFevals := e
      rw [hqf] at e; omega
  obtain ⟨r1, r2, rfl⟩ : ∃ r1 r2, runs = [r1, r2] := List.length_eq_two.1 hl2
  have hready := chain_ready hH (hI.chain.imp fun _ _ h => h.toRestarted) hR hvs (by
    intro i r hi hne
    have := hI.each i r hi
    refine defaultRates_strict (this.2.2.2.2.2.2.1 hne).1 ?_
    rw [this.1]
    have hi1 : i = 1 := by
      have := (List.getElem?_eq_some_iff.1 hi).1
      simp at this; omega
    rw [hi1]
    show q.lambda * 2 ^ 1 ≤ _
    rw [hql]; omega)
  have hsm : s.p.maximize = false := by rw [hsp]; exact hqm
  have a1 := hready 0 (r := r1) rfl
  have a2 := hready 1 (r := r2) rfl
  exact ⟨s, s', b, r1, r2, hs, ⟨_, h'⟩, hH, hI, hb, a1.1, a2.1, a1.2.trans hsm, a2.2.trans hsm⟩

end Libcmaes
