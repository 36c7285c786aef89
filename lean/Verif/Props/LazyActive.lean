import Verif.Lemmas.LazyActive

/-!
# C27: the active update with the lazy update
-/

namespace Libcmaes

open Spec Matrix

variable {n : ℕ}

/-- **C27 fails** for the active update with `set_lazy_update(true)` as soon as the threshold is at least two
generations: whatever the solver and the starting point, on the squared distance to the starting point there are draws
for which the covariance has a negative variance from the third generation to the end of the first period, and the
search fails in the first generation of the second period, where `operatorInverseSqrt` takes the root of a negative
eigenvalue. -/
theorem C27_lazy_false (env0 : Env n) (p : Params n) (s : Strat n) (hp : LazyActive p) (hl : 2 ≤ p.lazyValue)
    (h0 : Strat.new env0 .active p = .ok s) :
    ∃ (z : ℕ → Vec n) (env : Env n), env = { env0 with
        f := fun _ y => .num ((∑ i, (y i - s.sol.xmean i) ^ 2 : ℝ) : EReal), z := z } ∧
      Strat.new env .active p = .ok s ∧
      (∀ g, 3 ≤ g → g ≤ lazyPeriod p → ∃ t, s.generations env g = .ok t ∧ ∃ u, quad t.sol.cov u < 0) ∧
      s.generations env (lazyPeriod p + 1) = .error .notReal := by
  obtain ⟨hn0, hl0, hk, hps, hsg, hfr, hn, _, _, hneg, hcov, _, _, hpaths, _⟩ := Strat.new_ok h0
  have hgood : GoodParams p := hp.configured.good.1
  have hc1 := hgood.rates.c1_pos
  have hcmu0 := hgood.rates.cmu_nonneg
  have hlt := hp.strict.lt_one
  have hmuw := hgood.muw
  have hb0 : 0 < 1 - p.cmu := by linarith
  set cap := (1 - p.cmu) * 2 / 8 * (p.muw / (((n : ℝ) + 2) ^ (1.5 : ℝ) + 2 * p.muw)) with hcap
  have hcap0 : 0 < cap := by positivity
  set i0 : Fin n := ⟨0, Nat.pos_of_ne_zero hn0⟩
  -- a distance large enough
  obtain ⟨r, hr, hr1, hr2⟩ : ∃ r : ℝ, 0 < r ∧ 0.34 * (1 - p.cmu) / (r * r) ≤ cap ∧
      0.34 * (1 - p.cmu) / (r * r) * 0.5 ≤ p.c1 := by
    have hq : 0 < min cap p.c1 := lt_min hcap0 hc1
    refine ⟨Real.sqrt (1 / min cap p.c1), Real.sqrt_pos.2 (by positivity), ?_⟩
    rw [Real.mul_self_sqrt (by positivity), div_div_eq_mul_div, div_one]
    have h1 : 0.34 * (1 - p.cmu) * min cap p.c1 ≤ 1 * min cap p.c1 :=
      mul_le_mul_of_nonneg_right (by linarith) hq.le
    have h2 := min_le_left cap p.c1
    have h3 := min_le_right cap p.c1
    constructor <;> linarith
  set env : Env n := { env0 with
        f := fun _ y => .num ((∑ i, (y i - s.sol.xmean i) ^ 2 : ℝ) : EReal)
        z := fun k => if k % p.lambda < p.lambda - p.mu then 0 else (rootOne env0.eig)ᵀ.mulVec (Pi.single i0 r) } with henv
  have h0' : Strat.new env .active p = .ok s := by
    rw [← h0]
    unfold Strat.new Sol.make
    rw [hp.vd]
    rfl
  set a := 1 - p.c1 - p.cmu + 0.34 * (1 - p.cmu) / (r * r) * 0.5 with ha
  set d := 0.34 * (1 - p.cmu) with hd
  have ha0 : 0 < a := by
    have : 0 ≤ d / (r * r) * 0.5 := by rw [hd]; positivity
    rw [ha]; linarith
  have hab : a ≤ 1 - p.cmu := by rw [ha]; linarith
  have hz : ∀ g, ∀ j < p.lambda, env.z (g * p.lambda + j) =
      if j < p.lambda - p.mu then 0 else (rootOne env.eig)ᵀ.mulVec (Pi.single i0 r) := by
    intro g j hj
    show (if (g * p.lambda + j) % p.lambda < _ then _ else _) = _
    rw [show (g * p.lambda + j) % p.lambda = j by
      rw [add_comm, Nat.add_mul_mod_self_right, Nat.mod_eq_of_lt hj]]
  have key : ∀ g ≤ lazyPeriod p, ∃ t, Pulled env s i0 a d g t := by
    intro g
    induction g with
    | zero =>
      intro _
      exact ⟨s, rfl, rfl, hfr.pc, hsg, by rw [hcov, hp.sep, hp.vd]; rfl, hpaths, fun h => absurd rfl h,
        fun h => absurd rfl h, by rw [hfr.cov]; exact isSymm_one, by rw [hfr.cov, one_apply_eq]; rfl⟩
    | succ g ih =>
      intro hg
      obtain ⟨t, ht⟩ := ih (by omega)
      exact ht.next hp h0' (fun _ _ => rfl) hr (hz g) hr1 (by omega)
  have hneg : ∀ g, 3 ≤ g → ∀ t, Pulled env s i0 a d g t → quad t.sol.cov (Pi.single i0 1) < 0 := by
    intro g hg t ht
    have : quad t.sol.cov (Pi.single i0 1) = t.sol.cov i0 i0 := by
      unfold quad
      rw [mulVec_single_one, single_one_dotProduct]; rfl
    rw [this, ht.var]
    exact varAfter_neg ha0 hab (by linarith) g hg
  have hP : 3 ≤ lazyPeriod p := by
    have : 2 ≤ ⌊p.lazyValue⌋₊ := Nat.le_floor (by exact_mod_cast hl)
    have e : lazyPeriod p = ⌊p.lazyValue⌋₊ + 1 := rfl
    omega
  refine ⟨_, env, rfl, h0', fun g hg1 hg2 => ?_, ?_⟩
  · obtain ⟨t, ht⟩ := key g hg2
    exact ⟨t, ht.run, _, hneg g hg1 t ht⟩
  · obtain ⟨t, ht⟩ := key (lazyPeriod p) le_rfl
    have hA := along hp h0' ht.run
    refine Strat.generations_error _ ht.run ?_
    obtain ⟨pop, s1, hask, hpl, hup, ⟨u, hu, he⟩, _⟩ := ht.ask hp h0'
    have hut : u = t := by
      have hpos : 0 < lazyPeriod p := Nat.succ_pos _
      rw [show periodStart (lazyPeriod p) (lazyPeriod p) = lazyPeriod p by
        unfold periodStart; rw [Nat.div_self hpos, mul_one], ht.run] at hu
      injection hu with hu; exact hu.symm
    subst hut
    obtain ⟨s2, hph, hev, hsw, e2p, e2k, e2c, e2e, e2s, _⟩ := ht.eval hp (fun k y => by rw [henv]; trivial) h0' hask
    obtain ⟨⟨es, ei, ue, c, nz, x1, x2, p1, p2, e1⟩, _⟩ := Strat.ask_frame hask
    have hbad : ¬ ∀ i, 0 < (env.eig.solve u.sol.cov).1 i := by
      intro hall
      have := hneg _ hP u ht
      rw [quad_eig env.eig ht.symm] at this
      exact absurd this (not_lt.2 (Finset.sum_nonneg fun i _ => mul_nonneg (hall i).le (sq_nonneg _)))
    have hcsq : csqinvOf s2.es s2.sol = .error .notReal := by
      rw [e2e, e2s]
      unfold csqinvOf
      rw [if_pos (by rw [hup]; simp), he]
      unfold inverseSqrt
      exact if_neg hbad
    have htell : s2.tell env = .error .notReal := tell_notReal (by rw [e2p]; exact hA.good) e2k
      (by rw [e2p, hA.par]; exact hp.sep) (by rw [e2p, hA.par]; exact hp.uh) (by rw [e2p, hA.par]; exact hp.tpa)
      (by rw [e2s, e1]; exact ht.paths) (by rw [e2s, e1]; exact ht.sigma) (by rw [e2c, e2p])
      (by rw [e2s, e1, e2p]; exact hA.kcand) (by rw [e2s, e1]; exact ht.cov) hcsq hsw
    unfold Strat.generation
    rw [hask, Out.ok_bind]
    show (s1.phenoCols pop >>= _) = _
    rw [hph, Out.ok_bind, hev, Out.ok_bind, htell]; rfl

/-- The settings of `C27_lazy_false` from the constructor: two candidates in dimension 38 or more, or the default
population size in dimension 14400 or more. -/
theorem C27_lazy_settings (x0 : Vec n) (sigma : ℝ) (lambda : ℤ) (seed clock : ℕ) (p : Params n)
    (h : Params.make x0 sigma lambda seed clock GenoPheno.plain = .ok p)
    (hn : lambda = 2 ∧ 38 ≤ n ∨ lambda < 2 ∧ 14400 ≤ n) :
    LazyActive { p with lazyUpdate := true } ∧ 2 ≤ p.lazyValue ∧
      ∀ env : Env n, ∃ s, Strat.new env .active { p with lazyUpdate := true } = .ok s := by
  obtain ⟨u1, u2, u3, u4, u5, u6, u7, u8, u9, u10, u11, u12, u13, u14⟩ := Params.make_plain h
  obtain ⟨hsep, hvd⟩ := Params.make_flags h
  have hconf : Configured { p with lazyUpdate := true } := .other (.make h)
    ⟨rfl, rfl, rfl, rfl, rfl, rfl, rfl, rfl, rfl, rfl, rfl, rfl, rfl, rfl, rfl, rfl, rfl⟩
  have hst : StrictRates p ∧ 2 ≤ p.lazyValue := by
    rcases hn with ⟨rfl, hn⟩ | ⟨hl, hn⟩
    · obtain ⟨hlam, hcmu, hc1, hlz⟩ := make_two h
      have hn' : (38 : ℝ) ≤ n := by exact_mod_cast hn
      have hd : 40 * (n : ℝ) ≤ ((n : ℝ) + 1.3) ^ 2 + 1 := by nlinarith
      have hsm : 2 / (((n : ℝ) + 1.3) ^ 2 + 1) < 0.66 := by
        rw [div_lt_iff₀ (by positivity)]; nlinarith
      refine ⟨⟨by rw [hc1, hcmu]; linarith, by rw [hc1, hcmu]; linarith⟩, ?_⟩
      rw [hlz, div_div, div_div, le_div_iff₀ (by positivity)]
      linarith
    · obtain ⟨q, hs, hm⟩ := default_muw_le hl h
      refine ⟨(strictRates_default hl h).1, ?_⟩
      have hn' : (14400 : ℝ) ≤ n := by exact_mod_cast hn
      have hmu1 := hs.one_le_muw
      set w := Real.sqrt n with hw
      have hw2 : w * w = n := Real.mul_self_sqrt (by positivity)
      have hw1 : 120 ≤ w := by
        rw [hw, show (120 : ℝ) = Real.sqrt 14400 by rw [show (14400 : ℝ) = 120 ^ 2 by norm_num, Real.sqrt_sq (by norm_num)]]
        exact Real.sqrt_le_sqrt hn'
      have hD : 0 < ((n : ℝ) + 1.3) ^ 2 := by positivity
      have h1 : p.c1 ≤ 2 / ((n : ℝ) + 1.3) ^ 2 := by
        rw [hs.c1]
        exact div_le_div_of_nonneg_left (by norm_num) hD (by linarith)
      have h2 : p.cmu ≤ 2 * (p.muw - 1) / ((n : ℝ) + 1.3) ^ 2 := by
        rw [hs.cmu]
        refine (min_le_right _ _).trans ?_
        have h3 : 1 / p.muw ≤ 1 := by rw [div_le_one (by linarith)]; exact hmu1
        calc _ ≤ 2 * (p.muw - 1) / (((n : ℝ) + 2) ^ 2 + p.muw) := by
              apply div_le_div_of_nonneg_right _ (by positivity); linarith
          _ ≤ _ := div_le_div_of_nonneg_left (by linarith) hD (by nlinarith)
      have hpos := hs.c1_pos
      have hcmu : 0 ≤ p.cmu := ((Configured.make h).good.1).rates.cmu_nonneg
      have hsum : p.c1 + p.cmu ≤ 1 / (20 * n) := by
        calc p.c1 + p.cmu ≤ 2 * p.muw / ((n : ℝ) + 1.3) ^ 2 := by
              calc _ ≤ 2 / ((n : ℝ) + 1.3) ^ 2 + 2 * (p.muw - 1) / ((n : ℝ) + 1.3) ^ 2 := add_le_add h1 h2
                _ = _ := by rw [← add_div]; congr 1; ring
          _ ≤ 1 / (20 * n) := by
              rw [div_le_div_iff₀ hD (by positivity)]
              have : 120 * w ≤ n := by rw [← hw2]; exact mul_le_mul_of_nonneg_right hw1 (by linarith)
              nlinarith
      rw [hs.lazyValue, div_div, div_div, le_div_iff₀ (by positivity)]
      have := mul_le_mul_of_nonneg_left hsum (show (0 : ℝ) ≤ 20 * n by positivity)
      rw [mul_one_div_cancel (by positivity)] at this
      linarith
  refine ⟨⟨hconf, ⟨hst.1.lt_one, hst.1.active⟩, hsep, hvd, rfl, u2, u3, u1, ⟨u5, u4, u6, u11⟩, u8, u10⟩, hst.2, fun env => ?_⟩
  exact new_plain (env := env) (kind := .active) (p := { p with lazyUpdate := true }) u10 hconf.good.1

/-- The failure, in dimension 40 with two candidates, where the period is three generations. -/
example (env0 : Env 40) (x0 : Vec 40) : ∃ p s z env, Params.make x0 0.5 2 1 0 GenoPheno.plain = .ok p ∧
    Strat.new env .active { p with lazyUpdate := true } = .ok s ∧
    env = { env0 with f := fun _ y => .num ((∑ i, (y i - s.sol.xmean i) ^ 2 : ℝ) : EReal), z := z } ∧
    (∃ t, s.generations env 3 = .ok t ∧ ¬ PSD t.sol.cov) ∧ s.generations env 4 = .error .notReal := by
  obtain ⟨p, hp, _⟩ := C11_weights (by norm_num : 1 ≤ 40) x0 0.5 2 1 0 GenoPheno.plain
  obtain ⟨h1, h2, h3⟩ := C27_lazy_settings x0 0.5 2 1 0 p hp (Or.inl ⟨rfl, by norm_num⟩)
  obtain ⟨s, hs⟩ := h3 env0
  obtain ⟨z, env, e, h4, h5, h6⟩ := C27_lazy_false env0 _ s h1 h2 hs
  have hP : lazyPeriod { p with lazyUpdate := true } = 3 := by
    show ⌊p.lazyValue⌋₊ + 1 = 3
    have : ⌊p.lazyValue⌋₊ = 2 := by
      rw [(make_two hp).2.2.2, Nat.floor_eq_iff (by positivity)]
      norm_num
    rw [this]
  rw [hP] at h5 h6
  obtain ⟨t, ht, u, hu⟩ := h5 3 le_rfl le_rfl
  exact ⟨p, s, z, env, hp, h4, e, ⟨t, ht, fun h => absurd (h.nonneg u) (not_le.2 hu)⟩, h6⟩

end Libcmaes
