import Verif.Lemmas.SurrWitness
import Verif.Props.Elitism

/-!
# C58–C60, C74, C75: the simple surrogate strategy

`OnlyValues`, `Pointwise`, `Answers`, `discordant`, `SameOrder`: Spec/Surrogate.lean; `lastN`, `NoNaN`:
Spec/Run.lean.
-/

namespace Libcmaes

open Spec Surr

variable {n : ℕ} {M : Type}

/-! ### C58 -/

/-- **C58**, simple strategy.  Without elitism, uncertainty handling and gradient injection, over any number of
generations from any state whose training set is within its capacity: the training set holds the last `l` of the
truly evaluated points, one for each call of the objective made (`c`), each with the answer to its own call, in the
order of the calls (`c' = c`) unless these are made in parallel; there are never more than `l`. -/
theorem C58_simple (env : Env n) (sf : SurrFuncs n M) (t t' : Surr n M) (k : ℕ) (honly : OnlyValues sf)
    (huh : t.s.p.uh = false) (hgr : t.s.p.withGradient = false)
    (hel : t.s.p.elitist = false ∧ t.s.p.initialElitist = false ∧ t.s.p.initialElitistOnRestart = false)
    (hlen : t.s.sol.cands.length = t.s.p.lambda) (hts : t.tset.length ≤ t.l.toNat)
    (h : t.simpleGenerations env sf k = .ok t') :
    ∃ (c c' : List (Vec n × FVal)) (added : List (Cand n)), t'.s.calls = t.s.calls ++ c ∧ c'.Perm c ∧
      (t.s.p.mtFeval = false → c' = c) ∧ List.Forall₂ (Answers t.s.negate t.s.p.gp) added c' ∧
      t'.tset = lastN t.l.toNat (t.tset ++ added) ∧ t'.tset.length ≤ t.l.toNat := by
  induction k generalizing t with
  | zero =>
    injection h with h
    subst h
    exact ⟨[], [], [], by simp, .nil, fun _ => rfl, .nil, by simp [lastN_self hts], hts⟩
  | succ k ih =>
    unfold simpleGenerations at h
    obtain ⟨t1, h1, h⟩ := Out.bind_eq_ok.1 h
    obtain ⟨b, c1, hs⟩ := simpleGeneration_step honly huh hgr hlen h1
    have hone : ∃ (c1' : List (Vec n × FVal)) (added1 : List (Cand n)), c1'.Perm c1 ∧
        (t.s.p.mtFeval = false → c1' = c1) ∧ List.Forall₂ (Answers t.s.negate t.s.p.gp) added1 c1' ∧
        t1.tset = lastN t.l.toNat (t.tset ++ added1) := by
      cases b with
      | false =>
        obtain ⟨q1, q2, _⟩ := hs.quiet rfl
        subst q1
        exact ⟨[], [], .nil, fun _ => rfl, .nil, by simp [q2, lastN_self hts]⟩
      | true =>
        obtain ⟨q1, added, q2, _, q3, q4, _⟩ := hs.busy rfl
        obtain ⟨c', r1, r2, r3⟩ := q4 (by unfold Strat.elitismOn; simp [hel.1, hel.2.1, hel.2.2])
        refine ⟨c', added, r1, r2, r3, ?_⟩
        rw [q3, ← foldl_push, lastN_self hts]
    obtain ⟨c1', added1, a1, a2, a3, a4⟩ := hone
    obtain ⟨c, c', added, b1, b2, b3, b4, b5, b6⟩ := ih t1 (by rw [hs.p]; exact huh) (by rw [hs.p]; exact hgr)
      (by rw [hs.p]; exact hel) (by rw [hs.cands, hs.p]; exact hlen)
      (by rw [a4, hs.l, length_lastN]; exact min_le_left _ _) h
    rw [hs.l] at b5 b6
    rw [hs.negate, hs.p] at b4
    refine ⟨c1 ++ c, c1' ++ c', added1 ++ added, ?_, a1.append b2, fun hm => ?_, List.rel_append a3 b4, ?_, b6⟩
    · rw [b1, hs.calls, List.append_assoc]
    · rw [a2 hm, b3 (by rw [hs.p]; exact hm)]
    · rw [b5, a4, ← foldl_push, lastN_self (k := t.l.toNat) (l := lastN _ _) (by rw [length_lastN]; exact min_le_left _ _),
        foldl_push, List.append_assoc]

/-! ### C59 -/

/-- **C59.** With a model that predicts each point on its own, and two or more test points of different objective
values: the error is the number of pairs the model orders wrongly, divided by the number of all pairs; it lies in
[0,1], and is 0 exactly if the model orders the test points as the objective does. -/
theorem C59_error (sf : SurrFuncs n M) (g : M → List (Cand n) → Sol n → Vec n → FVal) (t : Surr n M)
    (test : List (Cand n)) (hp : Pointwise sf g) (hk : 2 ≤ test.length) (hn : NoNaN test)
    (hd : test.Pairwise fun a b => a.fvalue ≠ b.fvalue) :
    ∃ e : ℝ, t.computeError sf test = .ok (some e) ∧ 0 ≤ e ∧ e ≤ 1 ∧
      e * ((test.length : ℝ) * (test.length - 1) / 2) = discordant (g t.m t.tset t.s.sol) test ∧
      (e = 0 ↔ SameOrder (g t.m t.tset t.s.sol) test) := by
  obtain ⟨ctest, h1, h2, h3⟩ := computeError_pointwise hp (t := t) hk hn
  obtain ⟨e, he, e0, e1⟩ := computeError_ok (onlyValues_of_pointwise hp) hk h3
  have hk' : (2 : ℝ) ≤ test.length := by exact_mod_cast hk
  have hpos : 0 < (test.length : ℝ) * (test.length - 1) := by nlinarith
  have hk1 : (test.length : ℝ) - 1 ≠ 0 := by intro h; linarith
  have hdis := discordant_eq_disorder (g t.m t.tset t.s.sol) h2 (fun c hc => hn c (h1.mem_iff.1 hc))
    ((h1.pairwise_iff (by intro a b hab hba; exact hab hba.symm)).2 hd)
  rw [pairCount_perm h1] at hdis
  have hcount : e * ((test.length : ℝ) * (test.length - 1) / 2) =
      pairCount (fun a b => FVal.lt b.fvalue a.fvalue ∧
        ¬ FVal.le (g t.m t.tset t.s.sol b.x) (g t.m t.tset t.s.sol a.x)) test := by
    injection he with he
    rw [hdis, ← he]
    field_simp
  refine ⟨e, by rw [h3, he], e0, e1, by rw [discordant_eq]; exact hcount, ?_⟩
  constructor
  · intro h
    rw [h, zero_mul] at hcount
    exact sameOrder_of_pairCount (by exact_mod_cast hcount.symm)
  · intro h
    rw [pairCount_of_sameOrder h] at hcount
    rcases mul_eq_zero.1 (hcount.trans Nat.cast_zero) with h | h
    · exact h
    · exfalso; linarith

/-- **C59** when objective values may coincide: the error lies in [0,1], and if it is 0 the model orders the test
points as the objective does. -/
theorem C59_ties_partial (sf : SurrFuncs n M) (g : M → List (Cand n) → Sol n → Vec n → FVal) (t : Surr n M)
    (test : List (Cand n)) (hp : Pointwise sf g) (hk : 2 ≤ test.length) (hn : NoNaN test) :
    ∃ e : ℝ, t.computeError sf test = .ok (some e) ∧ 0 ≤ e ∧ e ≤ 1 ∧
      discordant (g t.m t.tset t.s.sol) test ≤ e * ((test.length : ℝ) * (test.length - 1) / 2) ∧
      (e = 0 → SameOrder (g t.m t.tset t.s.sol) test) := by
  obtain ⟨ctest, h1, h2, h3⟩ := computeError_pointwise hp (t := t) hk hn
  obtain ⟨e, he, e0, e1⟩ := computeError_ok (onlyValues_of_pointwise hp) hk h3
  have hk' : (2 : ℝ) ≤ test.length := by exact_mod_cast hk
  have hpos : 0 < (test.length : ℝ) * (test.length - 1) := by nlinarith
  have hk1 : (test.length : ℝ) - 1 ≠ 0 := by intro h; linarith
  have hdis := discordant_le_disorder (g t.m t.tset t.s.sol) h2
  rw [pairCount_perm h1] at hdis
  have hcount : (pairCount (fun a b => FVal.lt b.fvalue a.fvalue ∧
        ¬ FVal.le (g t.m t.tset t.s.sol b.x) (g t.m t.tset t.s.sol a.x)) test : ℝ) ≤
      e * ((test.length : ℝ) * (test.length - 1) / 2) := by
    injection he with he
    rw [← he]
    refine le_trans (Nat.cast_le.2 hdis) (le_of_eq ?_)
    field_simp
  refine ⟨e, by rw [h3, he], e0, e1, by rw [discordant_eq]; exact hcount, fun h => ?_⟩
  rw [h, zero_mul] at hcount
  exact sameOrder_of_pairCount (by exact_mod_cast le_antisymm hcount (Nat.cast_nonneg _))

/-- **C59** fails for ties: whatever `std::sort` does with equal elements, there are two test points of equal
objective value, which no model can order wrongly, and a model whose error on them is 1. -/
theorem C59_ties_false (us : USort (Cand 1)) (usr : USort (RCand 1)) (z0 z1 : ℕ → ℝ) (t : Surr 1 Unit) :
    ∃ (sf : SurrFuncs 1 Unit) (g : Vec 1 → FVal) (test : List (Cand 1)), sf.usort = us ∧ sf.usortR = usr ∧
      sf.z0 = z0 ∧ sf.z1 = z1 ∧ Pointwise sf (fun _ _ _ => g) ∧ test.length = 2 ∧ NoNaN test ∧
      SameOrder g test ∧ t.computeError sf test = .ok (some 1) := by
  set a : Cand 1 := ⟨FVal.ofReal 0, fun _ => 0, 0⟩ with ha
  set b : Cand 1 := ⟨FVal.ofReal 0, fun _ => 1, 1⟩ with hb
  have hnum : NoNaN [a, b] := by
    intro c hc
    rcases List.mem_cons.1 hc with rfl | hc
    · simp [ha, FVal.ofReal, FVal.IsNum]
    · rcases List.mem_cons.1 hc with rfl | hc
      · simp [hb, FVal.ofReal, FVal.IsNum]
      · cases hc
  have hsw := strictWeakOn_desc hnum
  have hperm := us.perm _ _ hsw
  have hcases : us.sort (fun a b => FVal.lt b.fvalue a.fvalue) [a, b] = [a, b] ∨
      us.sort (fun a b => FVal.lt b.fvalue a.fvalue) [a, b] = [b, a] := by
    generalize us.sort (fun a b => FVal.lt b.fvalue a.fvalue) [a, b] = l at hperm
    have hl := hperm.length_eq
    rcases l with _ | ⟨u, _ | ⟨v, _ | ⟨w, l⟩⟩⟩ <;> simp at hl
    have hu := hperm.mem_iff.1 (show u ∈ [u, v] by simp)
    rcases List.mem_cons.1 hu with rfl | hu
    · left
      have := (List.perm_cons a).1 hperm
      rw [List.perm_singleton] at this
      rw [this]
    · have hu : u = b := by simpa using hu
      right
      subst hu
      have := (List.perm_cons b).1 (hperm.trans (List.Perm.swap _ _ _))
      rw [List.perm_singleton] at this
      rw [this]
  have hso : ∀ g, SameOrder g [a, b] := by
    intro g c hc d hd hlt
    have hv : ∀ c ∈ [a, b], c.fvalue = FVal.ofReal 0 := by
      intro c hc
      rcases List.mem_cons.1 hc with rfl | hc
      · rfl
      · have : c = b := by simpa using hc
        rw [this]
    rw [hv c hc, hv d hd] at hlt
    exact absurd hlt (FVal.lt_irrefl _)
  have key : ∀ g : Vec 1 → FVal, ∀ u v : Cand 1,
      us.sort (fun a b => FVal.lt b.fvalue a.fvalue) [a, b] = [u, v] → g u.x = FVal.ofReal 0 →
      g v.x = FVal.ofReal 1 → ∃ sf : SurrFuncs 1 Unit, sf.usort = us ∧ sf.usortR = usr ∧
      sf.z0 = z0 ∧ sf.z1 = z1 ∧ Pointwise sf (fun _ _ _ => g) ∧ t.computeError sf [a, b] = .ok (some 1) := by
    intro g u v hs hu hv
    refine ⟨⟨fun m _ _ => .ok m, fun _ _ _ l => .ok (l.map fun c => { c with fvalue := g c.x }), us, usr, z0, z1⟩,
      rfl, rfl, rfl, rfl, fun _ _ _ _ => rfl, ?_⟩
    unfold computeError unstableSort
    simp only
    rw [if_pos hsw, Out.ok_bind, Out.ok_bind, if_neg (by simp), hs]
    have : disorder (List.map (fun c : Cand 1 => ({ c with fvalue := g c.x } : Cand 1)) [u, v]) = 1 := by
      have : ¬ FVal.le (FVal.ofReal 1) (FVal.ofReal 0) := by
        simp only [FVal.le, FVal.ofReal, not_le]
        exact_mod_cast (zero_lt_one : (0 : ℝ) < 1)
      simp [disorder, hu, hv, this]
    rw [this]
    simp only [Out.pure_eq]
    norm_num
  rcases hcases with hs | hs
  · obtain ⟨sf, h1, h2, h3, h4, h5, h6⟩ := key (fun x => FVal.ofReal (x 0)) a b hs rfl rfl
    exact ⟨sf, _, [a, b], h1, h2, h3, h4, h5, rfl, hnum, hso _, h6⟩
  · obtain ⟨sf, h1, h2, h3, h4, h5, h6⟩ := key (fun x => FVal.ofReal (1 - x 0)) b a hs (by simp [hb]) (by simp [ha])
    exact ⟨sf, _, [a, b], h1, h2, h3, h4, h5, rfl, hnum, hso _, h6⟩

/-- **C59**, history, simple strategy: over any number of generations with two or more candidates, the smoothed
error is a number in [0,1] if it was one at the start (it is 0.5 after construction). -/
theorem C59_smoothed_simple (env : Env n) (sf : SurrFuncs n M) (t t' : Surr n M) (k : ℕ) (honly : OnlyValues sf)
    (huh : t.s.p.uh = false) (hgr : t.s.p.withGradient = false) (hlam : 2 ≤ t.s.p.lambda)
    (hlen : t.s.sol.cands.length = t.s.p.lambda) (h0 : ∃ v, t.smooth = some v ∧ 0 ≤ v ∧ v ≤ 1)
    (h : t.simpleGenerations env sf k = .ok t') : ∃ v, t'.smooth = some v ∧ 0 ≤ v ∧ v ≤ 1 := by
  induction k generalizing t with
  | zero => injection h with h; subst h; exact h0
  | succ k ih =>
    unfold simpleGenerations at h
    obtain ⟨t1, h1, h⟩ := Out.bind_eq_ok.1 h
    obtain ⟨b, c1, hs⟩ := simpleGeneration_step honly huh hgr hlen h1
    exact ih t1 (by rw [hs.p]; exact huh) (by rw [hs.p]; exact hgr) (by rw [hs.p]; exact hlam)
      (by rw [hs.cands, hs.p]; exact hlen) (hs.smooth honly (by omega) h0) h

/-! ### C60 -/

/-- **C60.** For a smoothed error that is not negative, a positive threshold and a maximal life length `nmax` of at
least 1, the automatic life length lies between 2 and `nmax + 1`; it is 2 for errors of at least the threshold and
`nmax + 1` for error 0; a greater error never gives a longer life. -/
theorem C60_lifelength (t : Surr n M) (v : ℝ) (k : ℤ) (hv : t.smooth = some v) (h0 : 0 ≤ v) (hterr : 0 < t.terr)
    (hnmax : 1 ≤ t.nmax) (h : t.lifelength = .ok k) :
    2 ≤ k ∧ k ≤ t.nmax + 1 ∧ (t.terr ≤ v → k = 2) ∧ (v = 0 → k = t.nmax + 1) ∧
      ∀ w k', 0 ≤ w → v ≤ w → ({ t with smooth := some w } : Surr n M).lifelength = .ok k' → k' ≤ k := by
  obtain ⟨h1, h2, h3⟩ := lifelength_ok hv h0 hterr hnmax h
  have hn : (0 : ℝ) < t.nmax := by exact_mod_cast (by omega : (0 : ℤ) < t.nmax)
  refine ⟨h2, h3, fun hle => ?_, fun hv0 => ?_, fun w k' hw hvw h' => ?_⟩
  · have : ⌊(t.terr - v) / t.terr * t.nmax⌋ ≤ 0 := by
      have h4 : (t.terr - v) / t.terr * t.nmax ≤ 0 :=
        mul_nonpos_of_nonpos_of_nonneg (div_nonpos_of_nonpos_of_nonneg (by linarith) hterr.le) hn.le
      exact_mod_cast (Int.floor_le _).trans h4
    omega
  · have : ⌊(t.terr - v) / t.terr * t.nmax⌋ = t.nmax := by
      rw [hv0, sub_zero, div_self hterr.ne', one_mul, Int.floor_intCast]
    omega
  · have h4 := (lifelength_ok (t := { t with smooth := some w }) rfl hw hterr hnmax h').1
    simp only at h4
    have : ⌊(t.terr - w) / t.terr * t.nmax⌋ ≤ ⌊(t.terr - v) / t.terr * t.nmax⌋ := by
      refine Int.floor_le_floor ?_
      have : (t.terr - w) / t.terr ≤ (t.terr - v) / t.terr := by
        rw [div_le_div_iff_of_pos_right hterr]; linarith
      nlinarith
    omega

/-- With the threshold and the maximum of the code, the life length is defined for every error in [0,1]. -/
theorem C60_defined (t : Surr n M) (v : ℝ) (hv : t.smooth = some v) (h0 : 0 ≤ v) (h1 : v ≤ 1)
    (hterr : t.terr = 0.45) (hnmax : t.nmax = 20) : ∃ k, t.lifelength = .ok k :=
  lifelength_total hv h0 h1 (by rw [hterr]; norm_num) (by rw [hnmax]; norm_num) (by rw [hnmax]; norm_num)
    (by rw [hterr, hnmax]; norm_num)

/-- **C60**, search: from any state, over any number `k` of generations, the true objective is never set aside for
long: in the next `B` generations the whole population is evaluated at least once, if `B` is at least the number of
steps set at the start and, with automatic life length, at least `nmax + 1`. -/
theorem C60_run (env : Env n) (sf : SurrFuncs n M) (t t1 t2 : Surr n M) (k B : ℕ) (honly : OnlyValues sf)
    (huh : t.s.p.uh = false) (hgr : t.s.p.withGradient = false) (hlam : 2 ≤ t.s.p.lambda)
    (hlen : t.s.sol.cands.length = t.s.p.lambda) (h0 : ∃ v, t.smooth = some v ∧ 0 ≤ v ∧ v ≤ 1) (hterr : 0 < t.terr)
    (hnmax : 1 ≤ t.nmax) (hns : t.nsteps ≠ 0) (hB : t.nsteps.natAbs ≤ B)
    (hauto : t.autoNsteps = true → t.nmax + 1 ≤ B) (h1 : t.simpleGenerations env sf k = .ok t1)
    (h2 : t1.simpleGenerations env sf B = .ok t2) :
    t1.s.calls.length + t.s.p.lambda ≤ t2.s.calls.length := by
  induction k generalizing t with
  | zero =>
    injection h1 with h1
    subst h1
    refine (simpleGenerations_wait honly B huh hgr hlen h2).2 ?_
    have hpos : 0 < |t.nsteps| := abs_pos.2 hns
    have hlt := Int.emod_lt_of_pos (-(t.s.niter : ℤ)) hpos
    have hge := Int.emod_nonneg (-(t.s.niter : ℤ)) hpos.ne'
    refine ⟨(-(t.s.niter : ℤ) % |t.nsteps|).toNat, by rw [Int.abs_eq_natAbs] at *; omega, ?_⟩
    rw [Int.toNat_of_nonneg hge, ← abs_dvd, Int.dvd_iff_emod_eq_zero, Int.add_emod, Int.emod_emod, ← Int.add_emod]
    simp
  | succ k ih =>
    unfold simpleGenerations at h1
    obtain ⟨t0, g1, h1⟩ := Out.bind_eq_ok.1 h1
    obtain ⟨b, c, hs⟩ := simpleGeneration_step honly huh hgr hlen g1
    have hsm := hs.smooth honly (by omega) h0
    have hst : t0.nsteps ≠ 0 ∧ t0.nsteps.natAbs ≤ B := by
      cases b with
      | false => rw [(hs.quiet rfl).2.2.2]; exact ⟨hns, hB⟩
      | true =>
        obtain ⟨_, added, _, _, _, _, q1, q2, _⟩ := hs.busy rfl
        by_cases hc : t.s.niter ≠ 0 ∧ t.full = true
        · obtain ⟨sol1, e, _, _, _, h3, h4, h5⟩ := q1 hc
          cases ha : t.autoNsteps with
          | false => rw [h5 ha]; exact ⟨hns, hB⟩
          | true =>
            obtain ⟨v, hv, v0, v1⟩ := hsm
            rw [h3] at hv
            obtain ⟨_, r1, r2⟩ := lifelength_ok hv v0 (by exact hterr) (by exact hnmax) (h4 ha)
            have hb := hauto ha
            have r2' : t0.nsteps ≤ t.nmax + 1 := r2
            omega
        · rw [(q2 hc).2]; exact ⟨hns, hB⟩
    have := ih t0 (by rw [hs.p]; exact huh) (by rw [hs.p]; exact hgr) (by rw [hs.p]; exact hlam)
      (by rw [hs.cands, hs.p]; exact hlen) hsm (by rw [hs.terr]; exact hterr) (by rw [hs.nmax]; exact hnmax)
      hst.1 hst.2 (by rw [hs.auto, hs.nmax]; exact hauto) h1
    rwa [hs.p] at this

/-- A search with 0 steps between trainings has undefined behaviour at its first evaluation (remainder by 0). -/
theorem C60_zero (env : Env n) (sf : SurrFuncs n M) (t : Surr n M) (cols phen : List (Vec n))
    (he : t.exploit = true) (h : t.nsteps = 0) : t.simpleEval env sf cols phen = .error .ub := by
  unfold simpleEval trueEval
  rw [if_neg (by simp [he]), if_pos h]
  rfl

/-! ### C74 -/

/-- **C74.** A simple surrogate search with the usual settings, in which the user's functions work, never fails:
whatever its setters were called with, any number of generations succeeds. -/
theorem C74_total (env : Env n) (sf : SurrFuncs n M) (g : M → List (Cand n) → Sol n → Vec n → FVal)
    (kind : CovKind) (p : Params n) (m : M) (t : Surr n M) (hu : Usual kind p) (hS : Sane env sf g)
    (hgp : ∀ x : Vec n, ∃ y, phenoV p.gp x = .ok y) (h : SimpleStart env kind p m t) (k : ℕ) :
    ∃ t', t.simpleGenerations env sf k = .ok t' := by
  obtain ⟨⟨s, cr, hs, e, _⟩, _⟩ := simpleStart_ok h
  have hp : t.s.p.gp = p.gp := by rw [e]; show s.p.gp = _; rw [(Strat.new_ok hs).2.2.2.1]
  obtain ⟨t', ht, _⟩ := simpleGenerations_total hS (by rw [hp]; exact hgp) (simpleLive_start hu h) k
  exact ⟨t', ht⟩

/-- **C58**, from the start: the training set of a simple surrogate search holds the last `l` truly evaluated points
of the whole search, with the answers to the calls of the objective. -/
theorem C58_from_start (env : Env n) (sf : SurrFuncs n M) (kind : CovKind) (p : Params n) (m : M) (t t' : Surr n M)
    (k : ℕ) (honly : OnlyValues sf) (huh : p.uh = false) (hgr : p.withGradient = false)
    (hel : p.elitist = false ∧ p.initialElitist = false ∧ p.initialElitistOnRestart = false)
    (hmt : p.mtFeval = false) (h0 : SimpleStart env kind p m t) (h : t.simpleGenerations env sf k = .ok t') :
    ∃ added : List (Cand n), List.Forall₂ (Answers p.maximize p.gp) added t'.s.calls ∧
      t'.tset = lastN t.l.toNat added := by
  obtain ⟨⟨s, cr, hs, e, _⟩, _, h2, _⟩ := simpleStart_ok h0
  obtain ⟨_, _, _, hsp, _, hfr, _, _, hcl, hng, _⟩ := Strat.new_ok hs
  have hp : t.s.p = { p with sigmaInit := s.sol.sigma } := by rw [e]; exact hsp
  obtain ⟨c, c', added, q1, q2, q3, q4, q5, _⟩ := C58_simple env sf t t' k honly (by rw [hp]; exact huh)
    (by rw [hp]; exact hgr) (by rw [hp]; exact hel) (by rw [hp, e]; exact hfr.cands) (by rw [h2]; simp) h
  have hc : t.s.calls = [] := by rw [e]; exact hcl
  have hn : t.s.negate = p.maximize := by rw [e]; exact hng
  rw [q3 (by rw [hp]; exact hmt), hn] at q4
  rw [hp] at q4
  rw [hc, List.nil_append] at q1
  rw [h2, List.nil_append] at q5
  exact ⟨added, by rw [q1]; exact q4, q5⟩

/-! ### C75 -/

/-- **C75.** In a generation that exploits the model, which is one in which the training set is full and the number
of the generation is no multiple of the number of steps, the objective is not called; the candidates are the points
sampled, their values the predictions, in ascending order; model and training set stay as they are. -/
theorem C75_quiet (env : Env n) (sf : SurrFuncs n M) (g : M → List (Cand n) → Vec n → FVal) (t t' : Surr n M)
    (hp : Pointwise sf fun m ts _ => g m ts) (huh : t.s.p.uh = false) (hgr : t.s.p.withGradient = false)
    (hlam : 1 ≤ t.s.p.lambda) (hlen : t.s.sol.cands.length = t.s.p.lambda) (hx : t.exploit = true)
    (hf : t.l ≤ t.tset.length) (hd : ¬ t.nsteps ∣ (t.s.niter : ℤ)) (hns : t.nsteps ≠ 0)
    (h : t.simpleGeneration env sf = .ok t') :
    t'.s.calls = t.s.calls ∧ t'.s.nevals = t.s.nevals ∧ t'.m = t.m ∧ t'.tset = t.tset ∧
      (∃ pop s1, t.s.ask env = .ok (pop, s1) ∧ (t'.s.sol.cands.map (·.x)).Perm pop) ∧
      (∀ c ∈ t'.s.sol.cands, c.fvalue = g t.m t.tset c.x) ∧
      t'.s.sol.cands.Pairwise fun a b => ¬ FVal.lt b.fvalue a.fvalue := by
  have hq : t.trueEval = .ok false := by
    unfold trueEval full
    rw [if_neg (by simp [hx]), if_neg hns]
    congr 1
    simp only [Bool.or_eq_false_iff, decide_eq_false_iff_not, Bool.not_eq_false', decide_eq_true_eq]
    exact ⟨fun h => hd (Int.dvd_of_tmod_eq_zero h), hf⟩
  obtain ⟨b, c, hs⟩ := simpleGeneration_step (onlyValues_of_pointwise hp) huh hgr hlen h
  have hb : b = false := by
    have := hs.trueEval
    rw [hq] at this
    exact (Except.ok.inj this).symm
  obtain ⟨hc, _⟩ := hs.quiet hb
  obtain ⟨pop, s1, cs0, h1, h2, h3, h4, h5, h6, _⟩ := quiet_generation hp huh hlen hlam hq h
  refine ⟨by rw [hs.calls, hc, List.append_nil], by rw [hs.nevals, hc]; rfl, h5, h6, ⟨pop, s1, h1, ?_⟩, ?_, h4⟩
  · have := h3.map (·.x)
    rwa [predicted_x, h2] at this
  · intro c hc
    obtain ⟨d, _, rfl⟩ := List.mem_map.1 (h3.mem_iff.1 hc)
    rfl

/-! ### C76 -/

/-- **C76** fails, whatever the objective: the error measured in a generation that follows one exploiting the model
is 0, since the values it is compared with are the model's own. -/
theorem C76_vacuous_false (env : Env n) (sf : SurrFuncs n M) (g : M → List (Cand n) → Vec n → FVal)
    (t t1 t2 : Surr n M) (hp : Pointwise sf fun m ts _ => g m ts) (hg : ∀ m ts x, (g m ts x).IsNum)
    (huh : t.s.p.uh = false) (hgr : t.s.p.withGradient = false) (hlam : 2 ≤ t.s.p.lambda)
    (hlen : t.s.sol.cands.length = t.s.p.lambda) (hq : t.trueEval = .ok false) (hb : t1.trueEval = .ok true)
    (h1 : t.simpleGeneration env sf = .ok t1) (h2 : t1.simpleGeneration env sf = .ok t2) :
    t2.testErr = some 0 ∧ t2.smooth = t.smooth.map (0.8 * ·) := by
  have honly := onlyValues_of_pointwise hp
  obtain ⟨b, c, hs⟩ := simpleGeneration_step honly huh hgr hlen h1
  obtain rfl : b = false := by
    have := hs.trueEval
    rw [hq] at this
    exact (Except.ok.inj this).symm
  obtain ⟨_, qt, qs, _⟩ := hs.quiet rfl
  obtain ⟨_, hfull, _⟩ := trueEval_false hq
  obtain ⟨pop, s1, cs0, _, _, h3, _, h5, h6, _⟩ := quiet_generation hp huh hlen (by omega) hq h1
  have hv : ∀ c ∈ t1.s.sol.cands, c.fvalue = g t.m t.tset c.x := by
    intro c hc
    obtain ⟨d, _, rfl⟩ := List.mem_map.1 (h3.mem_iff.1 hc)
    rfl
  obtain ⟨b', c', hs'⟩ := simpleGeneration_step honly (by rw [hs.p]; exact huh) (by rw [hs.p]; exact hgr)
    (by rw [hs.cands, hs.p]; exact hlen) h2
  obtain rfl : b' = true := by
    have := hs'.trueEval
    rw [hb] at this
    exact (Except.ok.inj this).symm
  obtain ⟨_, added, _, _, _, _, q1, _⟩ := hs'.busy rfl
  obtain ⟨sol1, e, _, r1, r2, r3, _⟩ := q1 ⟨by rw [hs.niter]; omega, by
    have : t1.full = t.full := by unfold full; rw [qt, hs.l]
    rw [this]; exact hfull⟩
  have he : e = some 0 := by
    refine computeError_self hp (by rw [hs.cands]; omega) ?_ ?_ r1
    · intro c hc; rw [hv c hc]; exact hg _ _ _
    · intro c hc; rw [hv c hc, h5, h6]
  refine ⟨r2.trans he, ?_⟩
  rw [r3, he, ← qs]
  unfold setTestError
  cases t1.smooth with
  | none => rfl
  | some a => simp only [Option.map_some, Option.some.injEq]; norm_num

/-- **C76** fails: a model that puts every two points the objective tells apart in the wrong order is reported to have
test error 0, and the smoothed error, by which the life length is set, goes down from 0.5 to 0.4. -/
theorem C76_reversed_false (hn : 1 ≤ n) (z : ℕ → Vec n) :
    ∃ (env : Env n) (sf : SurrFuncs n Unit) (g : Vec n → FVal) (p : Params n) (t t' : Surr n Unit),
      Pointwise sf (fun _ _ _ => g) ∧
      (∀ k x y, FVal.lt (env.f k x) (env.f k y) → FVal.lt (g y) (g x)) ∧ env.z = z ∧
      Params.make 0 1 (-1) 0 0 GenoPheno.plain = .ok p ∧ SimpleStart env .plain p () t ∧
      t.simpleGenerations env sf 3 = .ok t' ∧ t'.testErr = some 0 ∧ t.smooth = some 0.5 ∧ t'.smooth = some 0.4 := by
  obtain ⟨p, hp, _⟩ := C11_weights hn (0 : Vec n) 1 (-1) 0 0 GenoPheno.plain
  obtain ⟨hu, hgp, _⟩ := usual_default (kind := .plain) (by norm_num) hp (by decide)
  set f : Vec n → ℝ := fun x => ∑ i, x i ^ 2 with hf
  set env : Env n := Env.basic (fun _ x => FVal.ofReal (f x)) z with henv
  set g : Vec n → FVal := fun x => FVal.ofReal (-f x) with hg
  have hgn : ∀ x, (g x).IsNum := fun x => by simp [hg, FVal.ofReal, FVal.IsNum]
  have hS : Sane env (untrained g) fun _ _ _ => g :=
    untrained_sane (fun k y => by simp [henv, Env.basic, FVal.ofReal, FVal.IsNum]) hgn
  obtain ⟨t, ht, hl, hns, hx⟩ := start_two (env := env) hu hgp ()
  obtain ⟨t1, t2, t3, c1, c2, c3, g1, g2, g3, L1, L2, L3, s1, s2, s3, _⟩ := three_turns hu hS
    (by intro x; rw [hgp]; exact ⟨x, phenoV_plain x⟩) ht hl hns hx
  obtain ⟨⟨s, cr, hs, e, _⟩, _, _, hsm, _⟩ := simpleStart_ok ht
  have hn0 : t.s.niter = 0 := by rw [e]; exact (Strat.new_ok hs).2.2.2.2.2.2.1
  obtain ⟨_, _, _, _, _, _, _, a4, _⟩ := s1.busy rfl
  have hsm1 : t1.smooth = some 0.5 := by rw [(a4 (fun h => h.1 hn0)).1, hsm]
  obtain ⟨r1, r2⟩ := C76_vacuous_false env (untrained g) (fun _ _ => g) t1 t2 t3 (untrained_pointwise g)
    (fun _ _ => hgn) L1.live.uh L1.live.grad L1.live.good.lambda L1.live.cands s2.trueEval s3.trueEval g2 g3
  refine ⟨env, untrained g, g, p, t, t3, untrained_pointwise g, ?_, rfl, hp, ht, (generations_three g1 g2 g3).2, r1,
    hsm, ?_⟩
  · intro k x y h
    simp only [henv, Env.basic, hg, FVal.lt, FVal.ofReal, EReal.coe_lt_coe_iff] at h ⊢
    linarith
  · rw [r2, hsm1]
    norm_num

/-- **C76**, what holds: the error measured in a true generation that follows a true generation is that on the
points evaluated in the latter (all of them answers `c'` to its calls), which the model has been trained with: every
pair of them put in the wrong order counts. -/
theorem C76_partial (env : Env n) (sf : SurrFuncs n M) (g : M → List (Cand n) → Vec n → FVal)
    (t t1 t2 : Surr n M) (hp : Pointwise sf fun m ts _ => g m ts) (huh : t.s.p.uh = false)
    (hgr : t.s.p.withGradient = false)
    (hel : t.s.p.elitist = false ∧ t.s.p.initialElitist = false ∧ t.s.p.initialElitistOnRestart = false)
    (hlam : 2 ≤ t.s.p.lambda) (hlen : t.s.sol.cands.length = t.s.p.lambda) (hq : t.trueEval = .ok true)
    (hb : t1.trueEval = .ok true) (hf : t1.l ≤ t1.tset.length) (h1 : t.simpleGeneration env sf = .ok t1)
    (h2 : t1.simpleGeneration env sf = .ok t2) (hnum : NoNaN t1.s.sol.cands) :
    ∃ (test : List (Cand n)) (c c' : List (Vec n × FVal)) (e : ℝ), t1.s.calls = t.s.calls ++ c ∧ c'.Perm c ∧
      List.Forall₂ (Answers t.s.negate t.s.p.gp) test c' ∧ test.length = t.s.p.lambda ∧ t2.testErr = some e ∧
      discordant (g t1.m t1.tset) test ≤ e * ((test.length : ℝ) * (test.length - 1) / 2) ∧
      (e = 0 → SameOrder (g t1.m t1.tset) test) := by
  have honly := onlyValues_of_pointwise hp
  obtain ⟨b, c, hs⟩ := simpleGeneration_step honly huh hgr hlen h1
  obtain rfl : b = true := by
    have := hs.trueEval
    rw [hq] at this
    exact (Except.ok.inj this).symm
  obtain ⟨q1, added, q2, q3, q4, q5, _⟩ := hs.busy rfl
  obtain ⟨c', r1, r2, r3⟩ := q5 (by unfold Strat.elitismOn; simp [hel.1, hel.2.1, hel.2.2])
  obtain ⟨b', d, hs'⟩ := simpleGeneration_step honly (by rw [hs.p]; exact huh) (by rw [hs.p]; exact hgr)
    (by rw [hs.cands, hs.p]; exact hlen) h2
  obtain rfl : b' = true := by
    have := hs'.trueEval
    rw [hb] at this
    exact (Except.ok.inj this).symm
  obtain ⟨_, _, _, _, _, _, w1, _⟩ := hs'.busy rfl
  obtain ⟨sol1, e, _, w2, w3, _⟩ := w1 ⟨by rw [hs.niter]; omega, by unfold full; simpa using hf⟩
  obtain ⟨v, v1, _, _, v2, v3⟩ := C59_ties_partial sf _ { t1 with s := { t1.s with sol := sol1 } } t1.s.sol.cands hp
    (by rw [hs.cands]; omega) hnum
  rw [w2] at v1
  have hev := Except.ok.inj v1
  refine ⟨added, c, c', v, hs.calls, r1, r3, by rw [q2, hlen], w3.trans hev, ?_, fun h0 a ha b hb => ?_⟩
  · rw [discordant_eq] at v2 ⊢
    rw [← pairCount_perm q3, ← q3.length_eq]
    exact v2
  · exact v3 h0 a (q3.mem_iff.2 ha) b (q3.mem_iff.2 hb)

/-! ### C77 -/

/-- **C77** fails: with the objective 0 everywhere, after two generations of a simple surrogate search both the best
candidate and the best candidate seen have a value of at most -1, made up by the model. -/
theorem C77_false (hn : 1 ≤ n) (z : ℕ → Vec n) :
    ∃ (env : Env n) (sf : SurrFuncs n Unit) (p : Params n) (t t' : Surr n Unit),
      (∀ k y, env.f k y = FVal.ofReal 0) ∧ Pointwise sf (fun _ _ _ _ => FVal.ofReal (-1)) ∧ env.z = z ∧
      Params.make 0 1 (-1) 0 0 GenoPheno.plain = .ok p ∧ SimpleStart env .plain p () t ∧
      t.simpleGenerations env sf 2 = .ok t' ∧ t'.s.sol.bestCandidate.fvalue = FVal.ofReal (-1) ∧
      ∃ b, t'.s.sol.bestSeen = some b ∧ FVal.le b.fvalue (FVal.ofReal (-1)) := by
  obtain ⟨p, hp, _⟩ := C11_weights hn (0 : Vec n) 1 (-1) 0 0 GenoPheno.plain
  obtain ⟨hu, hgp, _⟩ := usual_default (kind := .plain) (by norm_num) hp (by decide)
  set env : Env n := Env.basic (fun _ _ => FVal.ofReal 0) z with henv
  have hgn : ∀ x : Vec n, ((fun _ => FVal.ofReal (-1) : Vec n → FVal) x).IsNum := fun x => by
    simp [FVal.ofReal, FVal.IsNum]
  have hS : Sane env (untrained fun _ => FVal.ofReal (-1)) fun _ _ _ _ => FVal.ofReal (-1) :=
    untrained_sane (fun k y => by simp [henv, Env.basic, FVal.ofReal, FVal.IsNum]) hgn
  obtain ⟨t, ht, hl, hns, hx⟩ := start_two (env := env) hu hgp ()
  obtain ⟨t1, t2, t3, c1, c2, c3, g1, g2, g3, L1, L2, L3, s1, s2, s3, _⟩ := three_turns hu hS
    (by intro x; rw [hgp]; exact ⟨x, phenoV_plain x⟩) ht hl hns hx
  obtain ⟨⟨s, cr, hs, e, _⟩, _⟩ := simpleStart_ok ht
  have hmh : 0 < t1.s.sol.maxHist := by
    rw [s1.maxHist, e]
    show 0 < s.sol.maxHist
    rw [(Strat.new_ok hs).2.2.2.2.2.2.2.2.2.2.2.2.2.2.1]
    unfold maxHistOf
    split_ifs with h
    · exact h
    · positivity
  obtain ⟨b1, b, b2, b3⟩ := quiet_best (untrained_pointwise _) L1 (by rw [s1.niter]; omega) hmh s2.trueEval g2
  exact ⟨env, _, p, t, t2, fun _ _ => rfl, untrained_pointwise _, rfl, hp, ht, (generations_three g1 g2 g3).1, b1, b, b2,
    (FVal.le_iff_not_lt (L2.ref.1 b b2) (hgn 0)).2 b3⟩

/-- **C77**, what holds: a simple surrogate search that does not exploit its model (`set_exploit(false)`) is the
search without a surrogate: same state, same calls, same best candidates, after any number of generations.  (Assumed:
the user did not switch off the stopping criterion on the target value, which the code switches on again.) -/
theorem C77_partial (env : Env n) (sf : SurrFuncs n M) (t t' : Surr n M) (k : ℕ) (hx : t.exploit = false)
    (hc : setCriteriaActive t.s.crit 10 true = t.s.crit) (h : t.simpleGenerations env sf k = .ok t') :
    t.s.generations env k = .ok t'.s := by
  induction k generalizing t with
  | zero =>
    injection h with h
    subst h; rfl
  | succ k ih =>
    unfold simpleGenerations at h
    obtain ⟨t1, h1, h⟩ := Out.bind_eq_ok.1 h
    obtain ⟨r1, r2, r3⟩ := unexploited hx hc h1
    have := ih t1 r2 (by rw [r3]; exact hc) h
    unfold Strat.generations
    rw [r1, Out.ok_bind]
    exact this

/-! ### C58 with elitism -/

/-- **C58** fails with elitism: with the objective 0 everywhere, after three generations the training set holds a
point whose value is at most -1: the best candidate seen, with a value made up by the model, is reinjected and taken
for a true evaluation. -/
theorem C58_elitism_false (hn : 1 ≤ n) (z : ℕ → Vec n) :
    ∃ (env : Env n) (sf : SurrFuncs n Unit) (p0 p : Params n) (t t' : Surr n Unit),
      (∀ k y, env.f k y = FVal.ofReal 0) ∧ Pointwise sf (fun _ _ _ _ => FVal.ofReal (-1)) ∧ env.z = z ∧
      Params.make 0 1 (-1) 0 0 GenoPheno.plain = .ok p0 ∧ p = p0.setElitism 1 ∧ SimpleStart env .plain p () t ∧
      t.simpleGenerations env sf 3 = .ok t' ∧ ∃ c ∈ t'.tset, ¬ FVal.lt (FVal.ofReal (-1)) c.fvalue := by
  obtain ⟨p, hp, _⟩ := C11_weights hn (0 : Vec n) 1 (-1) 0 0 GenoPheno.plain
  obtain ⟨hu, hmode⟩ := usual_elitist (kind := .plain) hp (by decide)
  have hgp : (p.setElitism 1).gp = GenoPheno.plain := (Params.make_plain hp).2.2.2.2.2.2.2.2.2.1
  set env : Env n := Env.basic (fun _ _ => FVal.ofReal 0) z with henv
  have hgn : ∀ x : Vec n, ((fun _ => FVal.ofReal (-1) : Vec n → FVal) x).IsNum := fun x => by
    simp [FVal.ofReal, FVal.IsNum]
  have hS : Sane env (untrained fun _ => FVal.ofReal (-1)) fun _ _ _ _ => FVal.ofReal (-1) :=
    untrained_sane (fun k y => by simp [henv, Env.basic, FVal.ofReal, FVal.IsNum]) hgn
  obtain ⟨t, ht, hl, hns, hx⟩ := start_two (env := env) hu hgp ()
  obtain ⟨t1, t2, t3, c1, c2, c3, g1, g2, g3, L1, L2, L3, s1, s2, s3, hts⟩ := three_turns hu hS
    (by intro x; rw [hgp]; exact ⟨x, phenoV_plain x⟩) ht hl hns hx
  obtain ⟨⟨s, cr, hs, e, _⟩, _⟩ := simpleStart_ok ht
  have hsp := (Strat.new_ok hs).2.2.2.1
  have hmh : 0 < t1.s.sol.maxHist := by
    rw [s1.maxHist, e]
    show 0 < s.sol.maxHist
    rw [(Strat.new_ok hs).2.2.2.2.2.2.2.2.2.2.2.2.2.2.1]
    unfold maxHistOf
    split_ifs with h
    · exact h
    · positivity
  obtain ⟨b1, b, b2, b3⟩ := quiet_best (untrained_pointwise _) L1 (by rw [s1.niter]; omega) hmh s2.trueEval g2
  have hp2 : t2.s.p = { p.setElitism 1 with sigmaInit := s.sol.sigma } := by
    rw [s2.p, s1.p, e]; exact hsp
  obtain ⟨on, ref⟩ := Reference.on (s := t2.s) (c := b)
    ⟨by rw [s2.niter]; omega, Or.inl ⟨by rw [hp2]; exact hmode, b2⟩⟩
  obtain ⟨_, added, a1, _, a2, _, _, _, a3⟩ := s3.busy rfl
  obtain ⟨c, hc, hcb⟩ := a3 on b ref L2.live.good.lambda
  have hl2 : t2.l = t.l := by rw [s2.l, s1.l]
  have hlam : t2.s.p.lambda = p.lambda := by rw [hp2]; rfl
  have htset : t3.tset = added := by
    rw [a2, hl2, hl]
    have := foldl_push (l := ((p.setElitism 1).lambda : ℤ)) (h := t2.tset) added
    rw [lastN_self] at this
    · rw [this]
      unfold lastN
      have : (t2.tset ++ added).length - (((p.setElitism 1).lambda : ℤ)).toNat = t2.tset.length := by
        rw [List.length_append, a1, L2.live.cands, hlam]
        simp [Params.setElitism]
      rw [this]
      simp
    · rw [(s2.quiet rfl).2.1, hts]; simp
  refine ⟨env, _, p, _, t, t3, fun _ _ => rfl, untrained_pointwise _, rfl, hp, rfl, ht, (generations_three g1 g2 g3).2, c,
    by rw [htset]; exact hc, fun hlt => b3 ?_⟩
  have hbn := L2.ref.1 b b2
  by_contra h
  exact absurd hlt (FVal.not_lt_trans hbn hcb h)

/-! ### Instances -/

/-- Runs as in C58 to C60 and C74 exist, of any length, with any objective and any model without NaN, e.g. in
dimension 3 with automatic life length, 40 points in the training set. -/
example (f g : Vec 3 → ℝ) (z : ℕ → Vec 3) (k : ℕ) :
    ∃ (env : Env 3) (sf : SurrFuncs 3 Unit) (p : Params 3) (t t' : Surr 3 Unit),
      (∀ j y, env.f j y = FVal.ofReal (f y)) ∧ Sane env sf (fun _ _ _ x => FVal.ofReal (g x)) ∧ OnlyValues sf ∧
      Usual .active p ∧ p.uh = false ∧ p.withGradient = false ∧ (p.elitist = false ∧ p.initialElitist = false ∧
      p.initialElitistOnRestart = false) ∧ p.mtFeval = false ∧ SimpleStart env .active p () t ∧
      t.autoNsteps = true ∧ t.l = 40 ∧ t.simpleGenerations env sf k = .ok t' := by
  obtain ⟨p, hp, _⟩ := C11_weights (n := 3) (by norm_num) 0 1 (-1) 0 0 GenoPheno.plain
  obtain ⟨hu, hgp, _⟩ := usual_default (kind := .active) (by norm_num) hp (by decide)
  obtain ⟨q1, q2, q3, q4, q5, q6, _, _, q9, _⟩ := Params.make_plain hp
  set env : Env 3 := Env.basic (fun _ y => FVal.ofReal (f y)) z with henv
  have hS : Sane env (untrained fun x => FVal.ofReal (g x)) fun _ _ _ x => FVal.ofReal (g x) :=
    untrained_sane (fun k y => by simp [henv, Env.basic, FVal.ofReal, FVal.IsNum])
      (fun x => by simp [FVal.ofReal, FVal.IsNum])
  obtain ⟨s, hs⟩ := new_plain (env := env) (kind := .active) hgp hu.configured.good.1
  obtain ⟨t0, ht0⟩ := simpleStart_exists hs ()
  have ht : SimpleStart env .active p () ((t0.setL 40).setNsteps (-1)) := .setNsteps _ (by norm_num) (.setL _ ht0)
  obtain ⟨t', ht'⟩ := C74_total env _ _ .active p () _ hu hS (by intro x; rw [hgp]; exact ⟨x, phenoV_plain x⟩) ht k
  exact ⟨env, _, p, _, t', fun _ _ => rfl, hS, onlyValues_of_pointwise hS.predict, hu, q1, q2, ⟨q5, q4, q6⟩, q9, ht,
    by simp [setNsteps], rfl, ht'⟩

/-- Generations as in C75 and C76 occur: `three_turns` finds a generation with the model between two with the
objective. -/
example (hn : 1 ≤ n) (env : Env n) (sf : SurrFuncs n Unit) (g : Vec n → FVal) (hS : Sane env sf fun _ _ _ => g) :
    ∃ (t t1 t2 : Surr n Unit), t.trueEval = .ok false ∧ t1.trueEval = .ok true ∧
      t.simpleGeneration env sf = .ok t1 ∧ t1.simpleGeneration env sf = .ok t2 := by
  obtain ⟨p, hp, _⟩ := C11_weights hn (0 : Vec n) 1 (-1) 0 0 GenoPheno.plain
  obtain ⟨hu, hgp, _⟩ := usual_default (kind := .plain) (by norm_num) hp (by decide)
  obtain ⟨t, ht, hl, hns, hx⟩ := start_two (env := env) hu hgp ()
  obtain ⟨t1, t2, t3, _, _, _, _, g2, g3, _, _, _, _, s2, s3, _⟩ := three_turns hu hS
    (by intro x; rw [hgp]; exact ⟨x, phenoV_plain x⟩) ht hl hns hx
  exact ⟨t1, t2, t3, s2.trueEval, s3.trueEval, g2, g3⟩

end Libcmaes
