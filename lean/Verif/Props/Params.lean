import Verif.Lemmas.Setters

/-!
# C11 - C17: strategy parameters and setters
-/

namespace Libcmaes

open Finset Spec

/-! ## C11: population size and weights -/

/-- C11: an unspecified population size becomes `4 + floor(3 ln dim)`, at least 4; a given one is
kept. -/
theorem C11_lambda (n : ℕ) (hn : 1 ≤ n) (lambda : ℤ) :
    ∃ l : ℕ, lambdaOf n lambda = .ok l ∧ 2 ≤ l ∧
      (2 ≤ lambda → (l : ℤ) = lambda) ∧
      (lambda < 2 → (l : ℤ) = 4 + ⌊3 * Real.log n⌋ ∧ 4 ≤ l) := by
  have hlog : 0 ≤ ⌊3 * Real.log n⌋ := by
    apply Int.floor_nonneg.2
    have : 0 ≤ Real.log n := Real.log_nonneg (by exact_mod_cast hn)
    linarith
  unfold lambdaOf
  by_cases h : lambda < 2
  · refine ⟨(4 + ⌊3 * Real.log n⌋).toNat, ?_, ?_, ?_, ?_⟩
    · simp [h, show n ≠ 0 by omega]
    · omega
    · omega
    · omega
  · refine ⟨lambda.toNat, by simp [h], ?_, ?_, ?_⟩ <;> omega

/-- C11: every constructor call with `dim >= 1` succeeds, and gives `mu = floor(lambda/2)` positive,
strictly decreasing weights of sum one, and a selection mass `1/sum w_i^2` between 1 and `mu`. -/
theorem C11_weights {n : ℕ} (hn : 1 ≤ n) (x0 : Vec n) (sigma : ℝ) (lambda : ℤ) (seed clock : ℕ)
    (gp : GenoPheno) :
    ∃ p, Params.make x0 sigma lambda seed clock gp = .ok p ∧
      lambdaOf n lambda = .ok p.lambda ∧ p.mu = p.lambda / 2 ∧ GoodWeights p ∧
      p.muw = 1 / ∑ i ∈ range p.mu, p.weights i ^ 2 ∧ 1 ≤ p.muw ∧ p.muw ≤ p.mu := by
  obtain ⟨l, hl, h2, -, -⟩ := C11_lambda n hn lambda
  obtain ⟨q, hq⟩ := initializeParameters_ok
    (Params.blank l x0 sigma (if seed = 0 then clock else seed) gp) (by simpa [Params.blank] using h2) hn
  have hs := initializeParameters_spec hq
  have hsum := sumRaw_pos hs.mu_pos
  refine ⟨q, ?_, ?_, ?_, ⟨hs.mu_pos, ?_, ?_, ?_⟩, ?_, hs.one_le_muw, ?_⟩
  · simp only [Params.make, hl, Out.ok_bind, hq]
  · rw [hs.lambda]; exact hl
  · rw [hs.mu, hs.lambda]
  · intro i hi
    rw [hs.weights]
    exact div_pos (rawWeight_pos hi) hsum
  · intro i j hij hj
    rw [hs.weights, hs.weights]
    exact div_lt_div_of_pos_right (rawWeight_lt hij) hsum
  · simp only [hs.weights]
    rw [← Finset.sum_div, div_self hsum.ne']
  · rw [hs.muw, muwOf]
    simp only [hs.weights, div_pow]
    rw [← Finset.sum_div]
    have := sqRaw_pos hs.mu_pos
    simp only [sq]
    field_simp
  · rw [hs.muw]; exact muwOf_le hs.mu_pos

/-- The hypotheses of C11 are met: dimension 3, population size 7 gives three weights. -/
example : ∃ p : Params 3, Params.make (fun _ => 0) 1 7 42 0 .plain = .ok p ∧ p.mu = 3 := by
  obtain ⟨p, hp, hl, hm, -⟩ := C11_weights (n := 3) (by norm_num) (fun _ => 0) 1 7 42 0 .plain
  refine ⟨p, hp, ?_⟩
  simp [lambdaOf] at hl
  omega

/-! ## C12: default learning rates -/

/-- C12: the rates set by the constructor are admissible for every dimension and population size;
the square roots and the divisions are real. -/
theorem C12_default_rates {n : ℕ} (hn : 1 ≤ n) (x0 : Vec n) (sigma : ℝ) (lambda : ℤ)
    (seed clock : ℕ) (gp : GenoPheno) :
    ∃ p, Params.make x0 sigma lambda seed clock gp = .ok p ∧ Admissible p ∧ 1 ≤ p.dsigma ∧
      0 < p.chi ∧ 0 ≤ p.csigma * (2 - p.csigma) * p.muw ∧ 0 ≤ p.cc * (2 - p.cc) * p.muw ∧
      p.factPs ^ 2 = p.csigma * (2 - p.csigma) * p.muw ∧
      p.factPc ^ 2 = p.cc * (2 - p.cc) * p.muw ∧ 0 < p.lazyValue ∧ p.c1 < 1 / 3 := by
  obtain ⟨l, hl, h2, -, -⟩ := C11_lambda n hn lambda
  obtain ⟨q, hq⟩ := initializeParameters_ok
    (Params.blank l x0 sigma (if seed = 0 then clock else seed) gp) (by simpa [Params.blank] using h2) hn
  have hs := initializeParameters_spec hq
  have ha := hs.admissible
  have hm := hs.one_le_muw
  have hn1 := hs.n_real
  have hps : 0 ≤ q.csigma * (2 - q.csigma) * q.muw := by
    apply mul_nonneg (mul_nonneg ha.csigma_pos.le _) (by linarith)
    linarith [ha.csigma_lt]
  have hpc : 0 ≤ q.cc * (2 - q.cc) * q.muw := by
    apply mul_nonneg (mul_nonneg ha.cc_pos.le _) (by linarith)
    linarith [ha.cc_le]
  refine ⟨q, ?_, ha, ?_, ?_, hps, hpc, ?_, ?_, ?_, hs.c1_lt⟩
  · simp only [Params.make, hl, Out.ok_bind, hq]
  · rw [hs.dsigma]
    have := dsigmaDefault_ge n q.muw q.csigma
    linarith [ha.csigma_pos]
  · rw [hs.chi]; exact chiOf_pos hn1
  · rw [hs.factPs, Real.sq_sqrt hps]
  · rw [hs.factPc, Real.sq_sqrt hpc]
  · rw [hs.lazyValue]
    have : 0 < q.c1 + q.cmu := by linarith [ha.c1_pos, ha.cmu_nonneg]
    positivity

/-! ## C13: variants -/

/-- C13 (proved part): from a constructed parameter set, any sequence of `set_noisy`, `set_tpa`,
`set_fixed_p`, `unset_fixed_p`, `set_elitism`, `set_algo` calls, with at most one `set_sep` or (for
dimension 6 and more) one `set_vd` in it, leaves the rates admissible.
Missing from the full property: several `set_sep` calls and `set_vd` in dimensions below 6, for which
it is false (see the theorems below). -/
theorem C13_variants_partial {n : ℕ} (x0 : Vec n) (sigma : ℝ) (lambda : ℤ) (seed clock : ℕ)
    (gp : GenoPheno) (before after : List RateCall) (p q r : Params n)
    (hp : Params.make x0 sigma lambda seed clock gp = .ok p)
    (hq : before.foldlM RateCall.run p = .ok q)
    (v : Params n) (hv : v = q ∨ v = q.setSep ∨ (6 ≤ n ∧ v = q.setVd))
    (hr : after.foldlM RateCall.run v = .ok r) : Admissible r := by
  have hb : BaseRates p := by
    unfold Params.make at hp
    obtain ⟨l, -, hp⟩ := Out.bind_eq_ok.1 hp
    exact (initializeParameters_spec hp).base
  have hqb : BaseRates q := by
    clear hv hr hp
    induction before generalizing p with
    | nil => cases hq; exact hb
    | cons c cs ih =>
      rw [Out.foldlM_cons] at hq
      obtain ⟨p1, h1, h2⟩ := Out.bind_eq_ok.1 hq
      exact ih p1 h2 (RateCall.run_base hb h1)
  have hva : Admissible v := by
    rcases hv with rfl | rfl | ⟨h5, rfl⟩
    · exact hqb.adm
    · exact setSep_admissible hqb
    · exact setVd_admissible hqb h5
  clear hv
  induction after generalizing v with
  | nil => cases hr; exact hva
  | cons c cs ih =>
    rw [Out.foldlM_cons] at hr
    obtain ⟨p1, h1, h2⟩ := Out.bind_eq_ok.1 hr
    exact ih p1 h2 (RateCall.run_admissible hqb.n_pos hva h1)

/-- The hypotheses of C13 are met by a non-trivial call sequence. -/
example : ∃ p q r : Params 10, Params.make (fun _ => 0) 1 8 1 0 .plain = .ok p ∧
    [RateCall.tpa 2, .noisy, .elitism 3].foldlM RateCall.run p = .ok q ∧
    [RateCall.tpa 0].foldlM RateCall.run q.setSep = .ok r ∧ q.lambda = 40 := by
  obtain ⟨p, hp, hl, -⟩ := C11_weights (n := 10) (by norm_num) (fun _ => 0) 1 8 1 0 .plain
  have hl8 : p.lambda = 8 := by
    simp only [lambdaOf] at hl
    norm_num at hl
    omega
  obtain ⟨q0, hq0⟩ := initializeParameters_ok { p.setTpa 2 with lambda := (p.setTpa 2).lambda * 5 }
    (by simp [Params.setTpa, hl8]) (by norm_num)
  have hq0l : q0.lambda = 40 := by
    rw [(initializeParameters_spec hq0).lambda]
    simp [Params.setTpa, hl8]
  have hq : ∃ q, [RateCall.tpa 2, .noisy, .elitism 3].foldlM RateCall.run p = .ok q ∧
      q.lambda = 40 := by
    rw [Out.foldlM_cons]
    simp only [RateCall.run, Out.ok_bind]
    rw [Out.foldlM_cons]
    simp only [RateCall.run, Params.setNoisy, hq0, Out.ok_bind]
    exact ⟨_, rfl, hq0l⟩
  obtain ⟨q, hq, hql⟩ := hq
  exact ⟨p, q, _, hp, hq, rfl, hql⟩

/-- C13 is false for `set_vd` in dimensions below 5: the rank-one rate becomes negative, for every
population size.  (In dimension 5 it becomes 0.) -/
theorem C13_vd_small_dimension_false {n : ℕ} (hn : 1 ≤ n) (h5 : n < 5) (x0 : Vec n) (sigma : ℝ)
    (lambda : ℤ) (seed clock : ℕ) (gp : GenoPheno) :
    ∃ p, Params.make x0 sigma lambda seed clock gp = .ok p ∧ ((p.setAlgo 12).setVd).c1 < 0 ∧
      ¬ Admissible ((p.setAlgo 12).setVd) := by
  obtain ⟨p, hp, ha, -⟩ := C12_default_rates hn x0 sigma lambda seed clock gp
  have h : ((p.setAlgo 12).setVd).c1 < 0 := by
    have h4 : (n : ℝ) ≤ 4 := by exact_mod_cast (by omega : n ≤ 4)
    have hc := ha.c1_pos
    simp only [Params.setVd, Params.setAlgo]
    norm_num
    exact mul_neg_of_pos_of_neg hc (by linarith)
  exact ⟨p, hp, h, fun h' => absurd h'.c1_pos (not_lt.2 h.le)⟩

/-- C13 is false for repeated calls of `set_sep` (for instance through `set_str_algo("sepcmaes")`):
in dimension 10 with population size 4, the fourth call makes the rank-mu rate negative. -/
theorem C13_repeated_set_sep_false (sigma : ℝ) (seed clock : ℕ) (gp : GenoPheno) :
    ∃ p : Params 10, Params.make (fun _ => 0) sigma 4 seed clock gp = .ok p ∧
      1 < p.setSep.setSep.setSep.setSep.c1 ∧ p.setSep.setSep.setSep.setSep.cmu < 0 := by
  obtain ⟨p, hp, hl, hm, -, -, h1, h2⟩ := C11_weights (n := 10) (by norm_num) (fun _ => 0) sigma 4
    seed clock gp
  have hl4 : p.lambda = 4 := by
    simp only [lambdaOf] at hl
    norm_num at hl
    omega
  have hmw : p.muw ≤ 2 := by
    have : (p.mu : ℝ) = 2 := by rw [hm, hl4]; norm_num
    linarith
  have hc : p.c1 = 2 / ((((10 : ℕ) : ℝ) + 1.3) ^ 2 + p.muw) := by
    unfold Params.make at hp
    obtain ⟨l, -, hp⟩ := Out.bind_eq_ok.1 hp
    exact (initializeParameters_spec hp).c1
  have hc' : 1 / 100 < p.c1 := by
    rw [hc]
    rw [div_lt_div_iff₀ (by norm_num) (by norm_num; linarith)]
    norm_num
    linarith
  have hbig : 1 < p.setSep.setSep.setSep.setSep.c1 := by
    simp only [Params.setSep]
    norm_num
    linarith
  refine ⟨p, hp, hbig, ?_⟩
  refine lt_of_le_of_lt (b := 1 - p.setSep.setSep.setSep.setSep.c1) ?_ (by linarith)
  exact min_le_left _ _

/-! ## C14: elitism modes -/

/-- C14 (proved part): after any history of `set_elitism` calls in which 0 is never passed while mode
3 is on, exactly the mode passed last is active.  Missing: the histories excluded, for which it is
false. -/
theorem C14_elitism_partial {n : ℕ} (p : Params n) (hp : ElitismMode p 0) (h : List ℤ)
    (hno : ∀ a b, h = a ++ 0 :: b → expectElitism a ≠ 3) :
    ElitismMode (runElitism p h) (expectElitism h) := by
  induction h using List.reverseRecOn with
  | nil => exact hp
  | append_singleton l e ih =>
    have ih := ih (fun a b hab => hno a (b ++ [e]) (by simp [hab]))
    have hlast : e = 0 → expectElitism l ≠ 3 := fun he => hno l [] (by simp [he])
    have hx : expectElitism (l ++ [e]) = if 0 ≤ e ∧ e ≤ 3 then e else expectElitism l := by
      simp [expectElitism]
    have hr : runElitism p (l ++ [e]) = (runElitism p l).setElitism e := by
      simp [runElitism]
    rw [hx, hr]
    obtain ⟨i1, i2, i3⟩ := ih
    unfold Params.setElitism
    by_cases h0 : e = 0
    · have hf : (runElitism p l).initialElitistOnRestart = false := by
        have := hlast h0
        rw [← Bool.not_eq_true]
        exact fun hc => this (i3.1 hc)
      subst h0
      simp [ElitismMode, hf]
    by_cases h1 : e = 1
    · subst h1; simp [ElitismMode]
    by_cases h2 : e = 2
    · subst h2; simp [ElitismMode]
    by_cases h3 : e = 3
    · subst h3; simp [ElitismMode]
    · have : ¬ (0 ≤ e ∧ e ≤ 3) := by omega
      simp [h0, h1, h2, h3, this, ElitismMode, i1, i2, i3]

/-- The hypotheses of C14 are met: a history visiting all modes and an undocumented value. -/
example : ∀ a b : List ℤ, [3, 1, 7, 0, 2, 3] = a ++ 0 :: b → expectElitism a ≠ 3 := by
  intro a b h
  rcases a with _ | ⟨x, _ | ⟨y, _ | ⟨z, _ | ⟨w, a⟩⟩⟩⟩ <;> simp at h
  · obtain ⟨rfl, rfl, rfl, -⟩ := h
    simp [expectElitism]
  · obtain ⟨-, -, -, -, h⟩ := h
    rcases a with _ | ⟨x, _ | ⟨y, _ | ⟨z, a⟩⟩⟩ <;> simp at h

/-- C14 is false: `set_elitism(0)` after `set_elitism(3)` leaves all three elitism modes on. -/
theorem C14_elitism_zero_after_three_false {n : ℕ} (p : Params n) :
    let q := (p.setElitism 3).setElitism 0
    q.elitist = true ∧ q.initialElitist = true ∧ q.initialElitistOnRestart = true ∧
      ¬ ElitismMode q 0 := by
  simp [Params.setElitism, ElitismMode]

/-- C14: a mode in 1..3 is selected exactly, whatever the state before. -/
theorem C14_elitism_nonzero {n : ℕ} (p : Params n) (e : ℤ) (he : 1 ≤ e ∧ e ≤ 3) :
    ElitismMode (p.setElitism e) e := by
  have : e = 1 ∨ e = 2 ∨ e = 3 := by omega
  rcases this with rfl | rfl | rfl <;> simp [Params.setElitism, ElitismMode]

/-! ## C15: fixed parameters and stopping criteria -/

/-- C15 (proved part): after any history of `set_fixed_p` / `unset_fixed_p` calls on fresh parameters
in which no coordinate is set while it is already fixed, the fixed value of each coordinate is the
one of the last call on it.  Missing: re-setting a fixed coordinate, for which it is false. -/
theorem C15_fixed_last_call_partial {n : ℕ} (p : Params n) (hp : p.fixedP = [])
    (h : List FixCall) (hno : NoRefix h) (i : ℕ) :
    mapFind (runFix p h).fixedP i = expectFixed i h := by
  induction h using List.reverseRecOn with
  | nil => simp [runFix, expectFixed, hp, mapFind]
  | append_singleton l c ih =>
    have ih := ih (fun a i v b hab => hno a i v (b ++ [c]) (by simp [hab]))
    cases c with
    | set j v =>
      have hr : runFix p (l ++ [.set j v]) = (runFix p l).setFixedP j v := by simp [runFix]
      have hx : expectFixed i (l ++ [.set j v]) = if j = i then some v else expectFixed i l := by
        simp [expectFixed]
      rw [hr, hx]
      show mapFind (mapInsert (runFix p l).fixedP j v) i = _
      rw [mapFind_insert]
      by_cases hij : i = j
      · subst hij
        have := hno l i v [] rfl
        simp [ih, this]
      · simp [hij, Ne.symm hij, ih]
    | unset j =>
      have hr : runFix p (l ++ [.unset j]) = (runFix p l).unsetFixedP j := by simp [runFix]
      have hx : expectFixed i (l ++ [.unset j]) = if j = i then none else expectFixed i l := by
        simp [expectFixed]
      rw [hr, hx]
      show mapFind (mapErase (runFix p l).fixedP j) i = _
      rw [mapFind_erase]
      by_cases hij : i = j
      · simp [hij]
      · simp [hij, Ne.symm hij, ih]

/-- The hypotheses of C15 are met: fix, unfix and fix again the same coordinate. -/
example : NoRefix [.set 0 1, .set 2 5, .unset 0, .set 0 3] ∧
    expectFixed 0 [.set 0 1, .set 2 5, .unset 0, .set 0 3] = some 3 := by
  constructor
  · intro a i v b h
    rcases a with _ | ⟨x, _ | ⟨y, _ | ⟨z, _ | ⟨w, a⟩⟩⟩⟩ <;> simp at h
    · obtain ⟨⟨rfl, -⟩, -⟩ := h; simp [expectFixed]
    · obtain ⟨rfl, ⟨rfl, -⟩, -⟩ := h; simp [expectFixed]
    · obtain ⟨rfl, rfl, rfl, ⟨rfl, -⟩, -⟩ := h; simp [expectFixed]
  · simp [expectFixed]

/-- C15 is false for a second `set_fixed_p` on the same coordinate: the first value stays. -/
theorem C15_refix_false {n : ℕ} (p : Params n) (hp : p.fixedP = []) (i : ℕ) (v w : ℝ) :
    mapFind (runFix p [.set i v, .set i w]).fixedP i = some v ∧
      expectFixed i [.set i v, .set i w] = some w := by
  constructor
  · show mapFind (mapInsert (mapInsert p.fixedP i v) i w) i = some v
    rw [mapFind_insert, mapFind_insert, hp]
    simp [mapFind]
  · simp [expectFixed]

/-- C15 (proved part, stopping criteria): if each criterion is set at most once, its state is the one
asked for, and untouched criteria keep the default.  Missing: repeated calls. -/
theorem C15_criteria_last_call_partial {n : ℕ} (p : Params n) (hp : p.stoppingCrit = [])
    (h : List (ℤ × Bool)) (hno : (h.map Prod.fst).Nodup) (c : ℤ) :
    mapFind (runCrit p h).stoppingCrit c = expectCrit c h := by
  induction h using List.reverseRecOn with
  | nil => simp [runCrit, expectCrit, hp, mapFind]
  | append_singleton l x ih =>
    rw [List.map_append, List.nodup_append] at hno
    obtain ⟨h1, -, h3⟩ := hno
    have ih := ih h1
    have hr : runCrit p (l ++ [x]) = (runCrit p l).setStoppingCriteria x.1 x.2 := by
      simp [runCrit]
    have hx : expectCrit c (l ++ [x]) = if x.1 = c then some x.2 else expectCrit c l := by
      simp [expectCrit]
    rw [hr, hx]
    show mapFind (mapInsert (runCrit p l).stoppingCrit x.1 x.2) c = _
    rw [mapFind_insert]
    by_cases hc : c = x.1
    · subst hc
      have hn : expectCrit x.1 l = none := by
        have hmem : ∀ y ∈ l, y.1 ≠ x.1 := fun y hy he =>
          h3 y.1 (List.mem_map_of_mem (f := Prod.fst) hy) x.1 (by simp) he
        clear h3 h1 hr hx ih
        clear ih
        have : ∀ acc, l.foldl (fun (acc : Option Bool) q => if q.1 = x.1 then some q.2 else acc) acc
            = acc := by
          induction l with
          | nil => simp
          | cons y ys ih =>
            intro acc
            rw [List.foldl_cons, if_neg (hmem y (by simp))]
            exact ih (fun z hz => hmem z (by simp [hz])) acc
        exact this none
      simp [ih, hn]
    · simp [hc, Ne.symm hc, ih]

/-- The hypothesis of C15 (stopping criteria) is met by two criteria. -/
example : (([(1, false), (12, true)] : List (ℤ × Bool)).map Prod.fst).Nodup := by decide

/-- C15 is false for a second `set_stopping_criteria` on the same criterion: it cannot be switched
back on. -/
theorem C15_reset_criterion_false {n : ℕ} (p : Params n) (hp : p.stoppingCrit = []) (c : ℤ) :
    mapFind (runCrit p [(c, false), (c, true)]).stoppingCrit c = some false ∧
      expectCrit c [(c, false), (c, true)] = some true := by
  constructor
  · show mapFind (mapInsert (mapInsert p.stoppingCrit c false) c true) c = _
    rw [mapFind_insert, mapFind_insert, hp]
    simp [mapFind]
  · simp [expectCrit]

/-! ## C16: seed -/

/-- C16 (proved part): if the seed in force is not 0, `set_seed(s)` makes `get_seed()` return `s`,
for every C++ `int` and every clock value.  Missing: current seed 0. -/
theorem C16_seed_partial {n : ℕ} (p : Params n) (hp : p.seed ≠ 0) (s : ℤ)
    (h1 : -2 ^ 31 ≤ s) (h2 : s < 2 ^ 31) (clock : ℕ) : (p.setSeed s clock).getSeed = s := by
  simp only [Params.setSeed, Params.getSeed, hp, if_false, Params.seedToInt, Params.toU64]
  have : (0 : ℤ) ≤ s % 2 ^ 64 := Int.emod_nonneg _ (by norm_num)
  rw [Int.toNat_of_nonneg this]
  omega

/-- C16: a constructor given a non-zero seed keeps it, and one given 0 takes the clock. -/
theorem C16_seed_constructor {n : ℕ} (x0 : Vec n) (sigma : ℝ) (lambda : ℤ) (seed clock : ℕ)
    (gp : GenoPheno) (p : Params n) (hp : Params.make x0 sigma lambda seed clock gp = .ok p) :
    p.seed = if seed = 0 then clock else seed := by
  unfold Params.make at hp
  obtain ⟨l, -, hp⟩ := Out.bind_eq_ok.1 hp
  rw [(initializeParameters_spec hp).seed]
  rfl

/-- C16 is false when the current seed is 0 (reached by `set_seed(0)`): the argument is ignored and
the clock used. -/
theorem C16_seed_zero_false {n : ℕ} (p : Params n) (hp : p.seed ≠ 0) (s : ℤ) (clock clock' : ℕ) :
    ((p.setSeed 0 clock).setSeed s clock').seed = clock' := by
  simp [Params.setSeed, hp, Params.toU64]

/-! ## C17: algorithm names and codes -/

/-- C17: what `cmaes()` runs for each algorithm code, as documented in the enumeration: the covariance
update is the active one for codes 3-5 and 9-11, the VD one for 12-14, and plain otherwise; restarts
go single, IPOP, BIPOP in each group of three; the separable variants 6-11 run with separable
rates; any other code runs nothing. -/
theorem C17_dispatch {n : ℕ} (p : Params n) :
    (∀ l q, launchParams p = some (l, q) →
      0 ≤ p.algo ∧ p.algo ≤ 14 ∧ q.algo = p.algo ∧
      (l.cov = .active ↔ p.algo / 3 = 1 ∨ p.algo / 3 = 3) ∧ (l.cov = .vd ↔ p.algo / 3 = 4) ∧
      (l.restart = .single ↔ p.algo % 3 = 0) ∧ (l.restart = .ipop ↔ p.algo % 3 = 1) ∧
      (l.restart = .bipop ↔ p.algo % 3 = 2) ∧
      (6 ≤ p.algo ∧ p.algo ≤ 11 → q.sep = true) ∧ (12 ≤ p.algo → q.vd = true) ∧
      (p.algo < 6 → q = p)) ∧
    (launchParams p = none ↔ p.algo < 0 ∨ 14 < p.algo) := by
  constructor
  · intro l q hl
    unfold launchParams at hl
    rw [Option.map_eq_some_iff] at hl
    obtain ⟨l', hl', he⟩ := hl
    simp only [Prod.mk.injEq] at he
    obtain ⟨rfl, hq⟩ := he
    obtain ⟨h0, h1, h2, h3, h4, h5, h6, h7, h8⟩ := launch_spec hl'
    refine ⟨h0, h1, ?_, h2, h3, h4, h5, h6, ?_, ?_, ?_⟩
    · subst hq
      split_ifs <;> simp [setVd_algo, Params.setSep]
    · intro h
      have hf := h7.2 h
      have hv : l'.forceVd = false := by
        rw [← Bool.not_eq_true, h8]; omega
      subst hq
      cases hs : p.sep <;> simp [hf, hv, hs, Params.setSep]
    · intro h
      have hv := h8.2 h
      have hf : l'.forceSep = false := by
        rw [← Bool.not_eq_true, h7]; omega
      have hg : ¬ (p.algo ≠ 12 ∧ p.algo ≠ 13 ∧ p.algo ≠ 14) := by omega
      subst hq
      cases hs : p.vd <;> simp [hf, hv, hs, Params.setVd, hg]
    · intro h
      have hv : l'.forceVd = false := by
        rw [← Bool.not_eq_true, h8]; omega
      have hf : l'.forceSep = false := by
        rw [← Bool.not_eq_true, h7]; omega
      subst hq
      simp [hf, hv]
  · simp only [launchParams, Option.map_eq_none_iff]
    exact launch_none p.algo

/-- C17 (proved part): each documented name other than "sepaipop" and "sepabipop" makes `cmaes()` run
the documented update and restart scheme, with separable rates for the "sep" names.  Missing: those
two names. -/
theorem C17_names_partial {n : ℕ} (p : Params n) (name : String) (c : CovKind) (r : RestartKind)
    (sep : Bool) (h : (name, c, r, sep) ∈ documented) (h1 : name ≠ "sepaipop")
    (h2 : name ≠ "sepabipop") :
    ∃ l q, launchParams (p.setStrAlgo name) = some (l, q) ∧ l.cov = c ∧ l.restart = r ∧
      (sep = true → q.sep = true) ∧ (c = .vd → q.vd = true) := by
  have key : ∃ a : ℤ, mapFind Params.algoTable name = some a ∧
      (launch a).map (fun l => (l.cov, l.restart)) = some (c, r) ∧
      (sep = true → 6 ≤ a ∧ a ≤ 11) ∧ (c = .vd → 12 ≤ a) := by
    simp only [documented, List.mem_cons, Prod.mk.injEq, List.not_mem_nil, or_false] at h
    rcases h with ⟨rfl, rfl, rfl, rfl⟩ | ⟨rfl, rfl, rfl, rfl⟩ | ⟨rfl, rfl, rfl, rfl⟩ |
      ⟨rfl, rfl, rfl, rfl⟩ | ⟨rfl, rfl, rfl, rfl⟩ | ⟨rfl, rfl, rfl, rfl⟩ | ⟨rfl, rfl, rfl, rfl⟩ |
      ⟨rfl, rfl, rfl, rfl⟩ | ⟨rfl, rfl, rfl, rfl⟩ | ⟨rfl, rfl, rfl, rfl⟩ | ⟨rfl, rfl, rfl, rfl⟩ |
      ⟨rfl, rfl, rfl, rfl⟩ | ⟨rfl, rfl, rfl, rfl⟩ | ⟨rfl, rfl, rfl, rfl⟩ | ⟨rfl, rfl, rfl, rfl⟩
    all_goals first | exact absurd rfl h1 | exact absurd rfl h2 | skip
    all_goals refine ⟨_, rfl, ?_, ?_, ?_⟩ <;> simp [launch]
  obtain ⟨a, ha, hl, hs, hv⟩ := key
  have hal : (p.setStrAlgo name).algo = a := by rw [setStrAlgo_algo, ha]; rfl
  rw [Option.map_eq_some_iff] at hl
  obtain ⟨l, hl, hlc⟩ := hl
  simp only [Prod.mk.injEq] at hlc
  have hlp : ∃ q, launchParams (p.setStrAlgo name) = some (l, q) := by
    unfold launchParams; rw [hal, hl]; exact ⟨_, rfl⟩
  obtain ⟨q, hq⟩ := hlp
  obtain ⟨-, -, -, -, -, -, -, -, d1, d2, -⟩ := (C17_dispatch _).1 l q hq
  rw [hal] at d1 d2
  exact ⟨l, q, hq, hlc.1, hlc.2, fun h => d1 (hs h), fun h => d2 (hv h)⟩

/-- C17 is false for the two remaining documented names: the algorithm is left unchanged, while the
rates are switched to the separable ones. -/
theorem C17_names_false {n : ℕ} (p : Params n) (name : String)
    (h : name = "sepaipop" ∨ name = "sepabipop") :
    (p.setStrAlgo name).algo = p.algo ∧ (p.setStrAlgo name).sep = true := by
  rcases h with rfl | rfl
  all_goals
    refine ⟨?_, ?_⟩
    · rw [setStrAlgo_algo]; rfl
    · rfl

/-- C17: a name that is not in the table leaves the algorithm unchanged. -/
theorem C17_unknown_name {n : ℕ} (p : Params n) (name : String)
    (h : name ∉ documented.map Prod.fst) : (p.setStrAlgo name).algo = p.algo := by
  rw [setStrAlgo_algo]
  have : mapFind Params.algoTable name = none := by
    simp only [documented, List.map_cons, List.map_nil, List.mem_cons, List.not_mem_nil, or_false,
      not_or] at h
    simp only [mapFind, Params.algoTable, Option.map_eq_none_iff, List.find?_eq_none]
    intro x hx hxn
    simp only [decide_eq_true_eq] at hxn
    simp only [List.mem_cons, List.not_mem_nil, or_false] at hx
    rcases hx with rfl | rfl | rfl | rfl | rfl | rfl | rfl | rfl | rfl | rfl | rfl | rfl | rfl |
      rfl | rfl <;> simp only at hxn <;> simp_all
  rw [this]; rfl

end Libcmaes
