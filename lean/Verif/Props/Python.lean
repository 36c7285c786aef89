import Verif.Lemmas.Python
import Verif.Props.Sampling

/-!
# C103: the Python interface

`toParams` is `to_params` and `pyPcmaes` is `pcmaes` of python/lcmaes_interface.py; the result of the latter, in the model, is the
list of the calls of the user's function with the answers.
-/

namespace Libcmaes

open Spec Matrix

variable {n : ℕ}

/-- **C103**, bounds: when both lists of bounds are given, the user's function only gets points within them, whatever the
algorithm, with or without restarts and scaling.  Partial: without uncertainty handling and, with scaling, without gradients (the
full statement has neither hypothesis; C38 says what is missing there). -/
theorem C103_box_partial (env : Env n) (fuel clock : ℕ) (x0 lb ub : Vec n) (sigma0 : ℝ) (algo : String) (scaling : Bool)
    (vscaling : Option (List ℝ)) (kwargs : List PyKw) (pp : PyParams n) (calls : List (Vec n × FVal))
    (hb : ∀ i, lb i < ub i) (hw : scaling = true → ∀ i, ub i - lb i ≤ dblMax) (huh : ∀ kw ∈ kwargs, kw ≠ .uh true)
    (hgr : scaling = true → ∀ kw ∈ kwargs, kw ≠ .gradient true ∧ kw ≠ .edm true)
    (h : toParams clock x0 sigma0 algo (some (List.ofFn lb)) (some (List.ofFn ub)) scaling vscaling kwargs = .ok pp)
    (h1 : pyPcmaes env fuel pp = .ok (some calls)) : ∀ q ∈ calls, ∀ i, lb i ≤ q.1 i ∧ q.1 i ≤ ub i := by
  rw [pyPcmaes_eq, PyOut.lift_ok] at h1
  unfold toParams at h
  obtain ⟨c, hc, h⟩ := PyOut.bind_eq_ok.1 h
  obtain ⟨q, hq, h⟩ := PyOut.bind_eq_ok.1 h
  injection h with h
  subst h
  obtain ⟨a1, a2, a3, a4⟩ := callAll_gp hq
  obtain ⟨s1, s2, s3, s4, -⟩ := setStrAlgo_keeps c.p algo
  unfold pyChoose at hc
  simp only at hc
  rw [if_neg (by simp)] at hc
  have make : ∀ (cls : PyClass) (gp : GenoPheno), pyMake cls clock x0 sigma0 gp = .ok c →
      c.p.gp = gp ∧ c.p.uh = false ∧ c.p.withGradient = false ∧ c.p.withEdm = false := by
    intro cls gp hm
    unfold pyMake at hm
    obtain ⟨p, hp, hm⟩ := PyOut.bind_eq_ok.1 hm
    injection hm with hm
    subst hm
    rw [PyOut.lift_ok] at hp
    obtain ⟨hu, hgp, -⟩ := usual_default (kind := .plain) (by norm_num) hp (by decide)
    refine ⟨hgp, hu.uh, hu.grad, ?_⟩
    unfold Params.make at hp
    obtain ⟨l, -, hp⟩ := Out.bind_eq_ok.1 hp
    obtain ⟨mu, w, muw, cs, cc, c1, cm, ds, fs, fc, ch, lv, rl, al, e⟩ := initializeParameters_frame hp
    show p.withEdm = false
    rw [e]; rfl
  cases scaling with
  | false =>
    rw [if_pos rfl] at hc
    obtain ⟨m1, m2, m3, m4⟩ := make _ _ hc
    have hgp : q.gp = GenoPheno.ofBounds none (List.ofFn lb) (List.ofFn ub) := by rw [a1, s1, m1]
    obtain ⟨b1, b2⟩ := C38_bounds lb ub none hb
    exact cmaesCalls_box (p := q) (by rw [hgp]; exact b1) (a2 huh (by rw [s2]; exact m2))
      (fun _ _ => by rw [hgp]; exact b2) h1
  | true =>
    rw [if_neg (by simp)] at hc
    obtain ⟨gp, hg, hc⟩ := PyOut.bind_eq_ok.1 hc
    rw [PyOut.lift_ok] at hg
    obtain ⟨m1, m2, m3, m4⟩ := make _ _ hc
    have hgp : q.gp = gp := by rw [a1, s1, m1]
    obtain ⟨g, e1, e2, -⟩ := C06_bounds_scaled none (List.ofFn lb) (List.ofFn ub)
      (List.forall₂_iff_get.2 ⟨by simp, fun i h1 h2 => by simpa using hb _⟩)
      (List.forall₂_iff_get.2 ⟨by simp, fun i h1 h2 => by simpa using hw rfl _⟩)
    rw [e1] at hg; injection hg with hg; subst hg
    refine cmaesCalls_box (p := q) (by rw [hgp]; exact e2) (a2 huh (by rw [s2]; exact m2)) (fun h _ => ?_) h1
    rw [a3 (fun kw hkw => (hgr rfl kw hkw).1) (by rw [s3]; exact m3),
      a4 (fun kw hkw => (hgr rfl kw hkw).2) (by rw [s4]; exact m4)] at h
    cases h

/-- **C103**, keywords: with no bounds or proper ones, `to_params` raises no exception if and only if each keyword has a setter of
one value; keywords being of pairwise different names, each of them then has its value in the parameters (unless the clock
reads 0), and the order in which they are given is of no importance. -/
theorem C103_keywords (clock : ℕ) (x0 : Vec n) (sigma0 : ℝ) (algo : String) (bounds : Option (Vec n × Vec n)) (scaling : Bool)
    (kwargs : List PyKw) (hn : 1 ≤ n)
    (hb : ∀ lb ub, bounds = some (lb, ub) → ∀ i, lb i < ub i ∧ ub i - lb i ≤ dblMax) (hk : ∀ kw ∈ kwargs, KwOk kw)
    (hd : (kwargs.map kwName).Nodup) :
    ((∃ pp, toParams clock x0 sigma0 algo (bounds.map fun b => List.ofFn b.1) (bounds.map fun b => List.ofFn b.2) scaling none
      kwargs = .ok pp) ↔ ∀ kw ∈ kwargs, kwName kw ∈ settable) ∧
    ∀ pp, toParams clock x0 sigma0 algo (bounds.map fun b => List.ofFn b.1) (bounds.map fun b => List.ofFn b.2) scaling none
        kwargs = .ok pp →
      (clock ≠ 0 → ∀ kw ∈ kwargs, KwHolds pp.p kw) ∧
      ∀ kwargs', kwargs.Perm kwargs' → toParams clock x0 sigma0 algo (bounds.map fun b => List.ofFn b.1)
        (bounds.map fun b => List.ofFn b.2) scaling none kwargs' = .ok pp := by
  obtain ⟨c, hc, hseed⟩ : ∃ c, pyChoose clock x0 sigma0 (bounds.map fun b => List.ofFn b.1) (bounds.map fun b => List.ofFn b.2)
      scaling none = .ok c ∧ c.p.seed = clock := by
    have make : ∀ (cls : PyClass) (gp : GenoPheno), ∃ c, pyMake cls clock x0 sigma0 gp = .ok c ∧ c.p.seed = clock := by
      intro cls gp
      obtain ⟨p, hp, -⟩ := C11_weights hn x0 sigma0 (-1) 0 clock gp
      refine ⟨⟨cls, p⟩, PyOut.bind_eq_ok.2 ⟨p, PyOut.lift_ok.2 hp, rfl⟩, ?_⟩
      unfold Params.make at hp
      obtain ⟨l, -, hp⟩ := Out.bind_eq_ok.1 hp
      obtain ⟨mu, w, muw, cs, cc, c1, cm, ds, fs, fc, ch, lv, rl, al, e⟩ := initializeParameters_frame hp
      show p.seed = clock
      rw [e]; rfl
    unfold pyChoose
    cases bounds with
    | none => exact make _ _
    | some b =>
      simp only [Option.map_some]
      rw [if_neg (by simp)]
      cases scaling with
      | false => rw [if_pos rfl]; exact make _ _
      | true =>
        rw [if_neg (by simp)]
        obtain ⟨g, e1, -⟩ := C06_bounds_scaled none (List.ofFn b.1) (List.ofFn b.2)
          (List.forall₂_iff_get.2 ⟨by simp, fun i h1 h2 => by simpa using (hb b.1 b.2 rfl _).1⟩)
          (List.forall₂_iff_get.2 ⟨by simp, fun i h1 h2 => by simpa using (hb b.1 b.2 rfl _).2⟩)
        obtain ⟨c, hc, hs⟩ := make .pbs g
        exact ⟨c, PyOut.bind_eq_ok.2 ⟨g, PyOut.lift_ok.2 e1, hc⟩, hs⟩
  unfold toParams
  rw [hc]
  simp only [show ∀ k : PyParams n → PyOut (PyParams n), (Except.ok c >>= k) = k c from fun _ => rfl]
  refine ⟨?_, fun pp h => ?_⟩
  · rw [← callAll_ok clock kwargs hk (c.p.setStrAlgo algo)]
    constructor
    · rintro ⟨pp, h⟩
      obtain ⟨q, hq, -⟩ := PyOut.bind_eq_ok.1 h
      exact ⟨q, hq⟩
    · rintro ⟨q, hq⟩
      exact ⟨_, PyOut.bind_eq_ok.2 ⟨q, hq, rfl⟩⟩
  · obtain ⟨q, hq, h⟩ := PyOut.bind_eq_ok.1 h
    refine ⟨fun hcl => ?_, fun l hl => PyOut.bind_eq_ok.2 ⟨q, callAll_perm hl hd hq, h⟩⟩
    injection h with h
    subst h
    exact callAll_holds hd (by rw [(setStrAlgo_keeps c.p algo).2.2.2.2, hseed]; exact hcl) hq

/-- **C103**, the start: with no bounds or any, the search starts at the point and with the step size given. -/
theorem C103_start (clock : ℕ) (x0 : Vec n) (sigma0 : ℝ) (algo : String) (lbounds ubounds : Option (List ℝ)) (scaling : Bool)
    (vscaling : Option (List ℝ)) (kwargs : List PyKw) (pp : PyParams n)
    (h : toParams clock x0 sigma0 algo lbounds ubounds scaling vscaling kwargs = .ok pp) :
    pp.p.x0min = x0 ∧ pp.p.x0max = x0 ∧ pp.p.sigmaInit = sigma0 ∧ (pp.p.lambda : ℤ) = 4 + ⌊3 * Real.log n⌋ := by
  obtain ⟨c, hc, h⟩ := PyOut.bind_eq_ok.1 h
  obtain ⟨q, hq, h⟩ := PyOut.bind_eq_ok.1 h
  injection h with h
  subst h
  obtain ⟨a1, a2, a3, a4, -⟩ := callAll_start hq
  obtain ⟨b1, b2, b3, b4⟩ := setStrAlgo_start c.p algo
  have make : ∀ (cls : PyClass) (gp : GenoPheno), pyMake cls clock x0 sigma0 gp = .ok c →
      c.p.x0min = x0 ∧ c.p.x0max = x0 ∧ c.p.sigmaInit = sigma0 ∧ (c.p.lambda : ℤ) = 4 + ⌊3 * Real.log n⌋ := by
    intro cls gp hm
    obtain ⟨p, hp, hm⟩ := PyOut.bind_eq_ok.1 hm
    injection hm with hm
    subst hm
    rw [PyOut.lift_ok] at hp
    obtain ⟨-, -, -, -, -, -, -, -, -, -, -, u12, u13, u14⟩ := Params.make_plain hp
    refine ⟨u12, u13, u14, ?_⟩
    unfold Params.make at hp
    obtain ⟨l, hl, hp⟩ := Out.bind_eq_ok.1 hp
    obtain ⟨mu, w, muw, cs, cc, c1, cm, ds, fs, fc, ch, lv, rl, al, e⟩ := initializeParameters_frame hp
    show (p.lambda : ℤ) = _
    rw [e]
    show (l : ℤ) = _
    unfold lambdaOf at hl
    rw [if_pos (by norm_num)] at hl
    split_ifs at hl
    injection hl with hl
    have : 0 ≤ ⌊3 * Real.log n⌋ := Int.floor_nonneg.2 (mul_nonneg (by norm_num) (Real.log_natCast_nonneg n))
    omega
  show q.x0min = x0 ∧ q.x0max = x0 ∧ q.sigmaInit = sigma0 ∧ (q.lambda : ℤ) = _
  rw [a1, a2, a3, a4, b1, b2, b3, b4]
  unfold pyChoose at hc
  split at hc
  · split_ifs at hc
    · exact make _ _ hc
    · obtain ⟨g, -, hc⟩ := PyOut.bind_eq_ok.1 hc
      exact make _ _ hc
  · split at hc
    · exact make _ _ hc
    · cases hc

/-- **C103**, the search: without bounds and restarts, with keywords that do not change the kind of the search, `pcmaes` called on
what `to_params` gives runs the search with the covariance update and shape that the name says, which ends, without failure, for
each function with no NaN values. -/
theorem C103_search (env : Env n) (clock : ℕ) (x0 : Vec n) (sigma0 : ℝ) (algo : String) (scaling : Bool) (kwargs : List PyKw)
    (hn : 1 ≤ n) (ha : algo ∈ ["cmaes", "acmaes", "sepcmaes", "sepacmaes"]) (hk : ∀ kw ∈ kwargs, KwPlain kw)
    (hv : ∀ k y, Val (env.f k y)) :
    ∃ pp s t N, toParams clock x0 sigma0 algo none none scaling none kwargs = .ok pp ∧
      pp.p.sep = decide (algo = "sepcmaes" ∨ algo = "sepacmaes") ∧
      Strat.new env (if algo = "acmaes" ∨ algo = "sepacmaes" then .active else .plain) pp.p = .ok s ∧
      ∀ fuel, N ≤ fuel → s.optimize env fuel = .ok (some t) ∧ pyPcmaes env fuel pp = .ok (some t.calls) ∧
        t.nevals = t.calls.length := by
  obtain ⟨p, hp, -⟩ := C11_weights hn x0 sigma0 (-1) 0 clock GenoPheno.plain
  obtain ⟨u1, u2, u3, u4, u5, u6, u7, u8, u9, u10, u11, u12, u13, u14⟩ := Params.make_plain hp
  obtain ⟨l1, l2, l3, l4⟩ := Params.make_limits hp
  obtain ⟨f1, f2⟩ := Params.make_flags hp
  obtain ⟨s1, s2⟩ := strictRates_default (by norm_num) hp
  obtain ⟨q, hq⟩ := (callAll_ok clock kwargs (fun kw hkw s e => by
    have := hk kw hkw; rw [e] at this; exact this.elim) (p.setStrAlgo algo)).2 (fun kw hkw => by
      have := hk kw hkw
      cases kw <;> first | exact this.elim | simp [kwName, settable])
  have hto : toParams clock x0 sigma0 algo none none scaling none kwargs = .ok ⟨.nb, q⟩ :=
    PyOut.bind_eq_ok.2 ⟨⟨.nb, p⟩, PyOut.bind_eq_ok.2 ⟨p, PyOut.lift_ok.2 hp, rfl⟩, PyOut.bind_eq_ok.2 ⟨q, hq, rfl⟩⟩
  obtain ⟨a, b, c, d, e, f, g, m, hq'⟩ := callAll_plain hk hq
  obtain ⟨cd, hcd⟩ := setStrAlgo_single p ha
  -- the search that `cmaes` starts
  obtain ⟨kind, l, hkd, hke, hse, hl, hlr, hlc, hr⟩ : ∃ (kind : CovKind) (l : Launch), kind ≠ .vd ∧
      kind = (if algo = "acmaes" ∨ algo = "sepacmaes" then .active else .plain) ∧
      q.sep = decide (algo = "sepcmaes" ∨ algo = "sepacmaes") ∧ launchParams q = some (l, q) ∧
      l.restart = .single ∧ l.cov = kind ∧ ((∃ s, Strat.new env kind q = .ok s ∧ RunReady kind s) ∧ q.maximize = false) := by
    rcases hcd with ⟨hc, e1⟩ | ⟨hc, e1⟩
    · rw [e1] at hq'
      have hr : ∀ kind : CovKind, kind ≠ .vd → ((∃ s, Strat.new env kind q = .ok s ∧ RunReady kind s) ∧
          q.maximize = false) := by
        intro kind hkd
        rw [hq']
        exact ⟨ready_of hkd (.other (.make hp)
          ⟨rfl, rfl, rfl, rfl, rfl, rfl, rfl, rfl, rfl, rfl, rfl, rfl, rfl, rfl, rfl, rfl, rfl⟩) ⟨s1.1, s1.2⟩ f2 l4 u2 u1 u3 u10
          l1 l2 u6, u8⟩
      have hal : q.algo = cd := by rw [hq']
      have hse : q.sep = false := by rw [hq']; exact f1
      rcases hc with ⟨rfl, rfl⟩ | ⟨rfl, rfl⟩
      · exact ⟨.plain, ⟨.plain, .single, false, false, true⟩, by decide, by simp, by rw [hse]; simp, by
          unfold launchParams launch; rw [hal]; simp, rfl, rfl, hr _ (by decide)⟩
      · exact ⟨.active, ⟨.active, .single, false, false, true⟩, by decide, by simp, by rw [hse]; simp, by
          unfold launchParams launch; rw [hal]; simp, rfl, rfl, hr _ (by decide)⟩
    · rw [e1] at hq'
      have hr : ∀ kind : CovKind, kind ≠ .vd → ((∃ s, Strat.new env kind q = .ok s ∧ RunReady kind s) ∧
          q.maximize = false) := by
        intro kind hkd
        rw [hq']
        exact ⟨ready_of hkd (.other (.sep (.make hp) f1 f2)
          ⟨rfl, rfl, rfl, rfl, rfl, rfl, rfl, rfl, rfl, rfl, rfl, rfl, rfl, rfl, rfl, rfl, rfl⟩) ⟨s2.1, s2.2⟩ f2 l4 u2 u1 u3 u10
          l1 l2 u6, u8⟩
      have hal : q.algo = cd := by rw [hq']
      have hse : q.sep = true := by rw [hq']; rfl
      rcases hc with ⟨rfl, rfl⟩ | ⟨rfl, rfl⟩
      · exact ⟨.plain, ⟨.plain, .single, true, false, true⟩, by decide, by simp, by rw [hse]; simp, by
          unfold launchParams launch; rw [hal]; simp [hse], rfl, rfl, hr _ (by decide)⟩
      · exact ⟨.active, ⟨.active, .single, true, false, true⟩, by decide, by simp, by rw [hse]; simp, by
          unfold launchParams launch; rw [hal]; simp [hse], rfl, rfl, hr _ (by decide)⟩
  obtain ⟨⟨s, hs, hR⟩, hmax⟩ := hr
  obtain ⟨t, ht, -⟩ := hR.run (env := env) (by
    intro k y
    have : s.p.maximize = false := by rw [(begins_new hs).params]; exact hmax
    rw [this]; exact hv k y)
  refine ⟨⟨.nb, q⟩, s, t, ⌈autoLimit s.p⌉₊ + 1, hto, hse, by rw [← hke]; exact hs, fun fuel hf =>
    ⟨ht fuel hf, ?_, (C36_optimize env kind q s t fuel hs (ht fuel hf)).1⟩⟩
  rw [pyPcmaes_eq, PyOut.lift_ok]
  unfold cmaesCalls
  show (match launchParams q with
    | none => _
    | some (l, q) => _) = _
  rw [hl]
  simp only
  rw [hlr]
  simp only
  rw [hlc, hs, Out.ok_bind, ht fuel hf, Out.ok_bind]
  rfl

/-- **C103**, the algorithm: for each documented name but the two of C17, with any bounds and keywords, what the user's function is
called with is what the strategy that the name says calls it with; the objects differ from those that `to_params` gives in the
separable or VD setting at most. -/
theorem C103_names (env : Env n) (clock : ℕ) (x0 : Vec n) (sigma0 : ℝ) (name : String) (lbounds ubounds : Option (List ℝ))
    (scaling : Bool) (vscaling : Option (List ℝ)) (kwargs : List PyKw) (pp : PyParams n) (c : CovKind) (r : RestartKind)
    (sep : Bool) (hname : (name, c, r, sep) ∈ documented) (h1 : name ≠ "sepaipop") (h2 : name ≠ "sepabipop")
    (h : toParams clock x0 sigma0 name lbounds ubounds scaling vscaling kwargs = .ok pp) :
    ∃ q : Params n, (sep = true → q.sep = true) ∧ (c = .vd → q.vd = true) ∧ q.gp = pp.p.gp ∧
      (q = pp.p ∨ q = pp.p.setSep ∨ q = pp.p.setVd) ∧
      ∀ fuel calls, pyPcmaes env fuel pp = .ok (some calls) ↔
        match r with
        | .single => ∃ s t, Strat.new env c q = .ok s ∧ s.optimize env fuel = .ok (some t) ∧ t.calls = calls
        | .ipop => ∃ s t b, Strat.new env c q = .ok s ∧ s.ipopOptimize env fuel = .ok (some (t, b)) ∧ t.calls = calls
        | .bipop => ∃ s t, Bipop.new env c q = .ok s ∧ s.optimize env fuel = .ok (some t) ∧ t.b.s.calls = calls := by
  obtain ⟨k, hc, h⟩ := PyOut.bind_eq_ok.1 h
  obtain ⟨q, hq, h⟩ := PyOut.bind_eq_ok.1 h
  injection h with h
  subst h
  obtain ⟨a, l, ha, hl, hlc, hlr, hs, hv⟩ := documented_code hname h1 h2
  have hal : q.algo = a := by
    rw [(callAll_start hq).2.2.2.2, setStrAlgo_algo, ha]; rfl
  obtain ⟨q', hq', hor⟩ : ∃ q', launchParams q = some (l, q') ∧ (q' = q ∨ q' = q.setSep ∨ q' = q.setVd) := by
    unfold launchParams
    rw [hal, hl]
    refine ⟨_, rfl, ?_⟩
    have hex : l.forceSep = true → l.forceVd = false := by
      obtain ⟨-, -, -, -, -, -, -, h7, h8⟩ := launch_spec hl
      intro hf
      have := h7.1 hf
      rw [← Bool.not_eq_true, h8]
      omega
    cases hf : l.forceSep
    · cases hg : l.forceVd
      · exact Or.inl rfl
      · cases hv : q.vd
        · exact Or.inr (Or.inr (by simp [hv]))
        · exact Or.inl (by simp [hv])
    · rw [hex hf]
      cases hv : q.sep
      · exact Or.inr (Or.inl (by simp))
      · exact Or.inl (by simp)
  obtain ⟨-, -, -, -, -, -, -, -, d1, d2, -⟩ := (C17_dispatch q).1 l q' hq'
  rw [hal] at d1 d2
  refine ⟨q', fun h => d1 (hs h), fun h => d2 (hv h), (launchParams_keeps hq').1, hor, fun fuel calls => ?_⟩
  rw [pyPcmaes_eq, PyOut.lift_ok]
  unfold cmaesCalls
  show (match launchParams q with
    | none => _
    | some (l, q) => _) = _ ↔ _
  rw [hq']
  simp only
  rw [hlr, hlc]
  cases r <;> simp only
  · constructor
    · intro h
      obtain ⟨s, e1, h⟩ := Out.bind_eq_ok.1 h
      obtain ⟨o, e2, h⟩ := Out.bind_eq_ok.1 h
      injection h with h
      obtain ⟨t, rfl, rfl⟩ := Option.map_eq_some_iff.1 h
      exact ⟨s, t, e1, e2, rfl⟩
    · rintro ⟨s, t, e1, e2, rfl⟩
      exact Out.bind_eq_ok.2 ⟨s, e1, Out.bind_eq_ok.2 ⟨_, e2, rfl⟩⟩
  · constructor
    · intro h
      obtain ⟨s, e1, h⟩ := Out.bind_eq_ok.1 h
      obtain ⟨o, e2, h⟩ := Out.bind_eq_ok.1 h
      injection h with h
      obtain ⟨t, rfl, rfl⟩ := Option.map_eq_some_iff.1 h
      exact ⟨s, t.1, t.2, e1, e2, rfl⟩
    · rintro ⟨s, t, b, e1, e2, rfl⟩
      exact Out.bind_eq_ok.2 ⟨s, e1, Out.bind_eq_ok.2 ⟨_, e2, rfl⟩⟩
  · constructor
    · intro h
      obtain ⟨s, e1, h⟩ := Out.bind_eq_ok.1 h
      obtain ⟨o, e2, h⟩ := Out.bind_eq_ok.1 h
      injection h with h
      obtain ⟨t, rfl, rfl⟩ := Option.map_eq_some_iff.1 h
      exact ⟨s, t, e1, e2, rfl⟩
    · rintro ⟨s, t, e1, e2, rfl⟩
      exact Out.bind_eq_ok.2 ⟨s, e1, Out.bind_eq_ok.2 ⟨_, e2, rfl⟩⟩

/-- The hypotheses are met. -/
example : ("abipop", CovKind.active, RestartKind.bipop, false) ∈ documented ∧
    ∃ pp : PyParams 2, toParams 7 ![0, 1] 1 "abipop" (some [-1, 0]) (some [1, 3]) false none [PyKw.restarts 3] = .ok pp := by
  refine ⟨by simp [documented], ?_⟩
  have := (C103_keywords 7 ![0, 1] 1 "abipop" (some (![-1, 0], ![1, 3])) false [PyKw.restarts 3] (by norm_num) (by
    rintro lb ub h i
    simp only [Option.some.injEq, Prod.mk.injEq] at h
    obtain ⟨rfl, rfl⟩ := h
    have : (3 : ℝ) ≤ dblMax := by linarith [dblMax_ge]
    fin_cases i
    · exact ⟨by norm_num, by norm_num; linarith⟩
    · exact ⟨by norm_num, by norm_num; linarith⟩) (by simp [KwOk]) (by simp)).1.2 (by simp [kwName, settable])
  simpa using this

/-- Keywords as in `C103_keywords` and `C103_search`, and bounds. -/
example : (∀ kw ∈ [PyKw.maxIter 100, .ftarget (.num 0), .seed 5], KwPlain kw ∧ KwOk kw ∧ kwName kw ∈ settable) ∧
    (([PyKw.maxIter 100, .ftarget (.num 0), .seed 5].map kwName).Nodup) ∧
    ∀ i : Fin 2, (![-1, 0] : Vec 2) i < ![1, 3] i ∧ (![1, 3] : Vec 2) i - ![-1, 0] i ≤ dblMax := by
  refine ⟨?_, by decide, ?_⟩
  · intro kw hkw
    simp only [List.mem_cons, List.not_mem_nil, or_false] at hkw
    rcases hkw with rfl | rfl | rfl <;> exact ⟨trivial, by unfold KwOk; simp, by simp [kwName, settable]⟩
  · have : (3 : ℝ) ≤ dblMax := by linarith [dblMax_ge]
    intro i
    fin_cases i
    · exact ⟨by norm_num, by norm_num; linarith⟩
    · exact ⟨by norm_num, by norm_num; linarith⟩

/-- **C103** fails for `vscaling`: without both bounds, `to_params` with scaling vectors always raises an exception: it calls
`make_parameters_ls` with three arguments, where the binding takes five. -/
theorem C103_vscaling_false (clock : ℕ) (x0 : Vec n) (sigma0 : ℝ) (algo : String) (bounds : Option (List ℝ)) (scaling : Bool)
    (vscaling : List ℝ) (kwargs : List PyKw) :
    toParams clock x0 sigma0 algo bounds none scaling (some vscaling) kwargs = .error .argument ∧
      toParams clock x0 sigma0 algo none bounds scaling (some vscaling) kwargs = .error .argument := by
  constructor <;> cases bounds <;> rfl

/-- **C103** fails for one list of bounds without the other, which is dropped without notice: there are draws such that the first
point of the search is below each of the lower bounds given. -/
theorem C103_onebound_false (clock : ℕ) (x0 lb : Vec n) (sigma0 : ℝ) (hn : 1 ≤ n) (hs : 0 < sigma0) :
    ∃ env pp s pop s1 x, toParams clock x0 sigma0 "acmaes" (some (List.ofFn lb)) none false none [] = .ok pp ∧
      Strat.new env .active pp.p = .ok s ∧ s.ask env = .ok (pop, s1) ∧ pop[0]? = some x ∧ phenoV pp.p.gp x = .ok x ∧
      ∀ i, x i < lb i := by
  obtain ⟨p, hp, -⟩ := C11_weights hn x0 sigma0 (-1) 0 clock GenoPheno.plain
  obtain ⟨u1, u2, u3, u4, u5, u6, u7, u8, u9, u10, u11, u12, u13, u14⟩ := Params.make_plain hp
  obtain ⟨l1, l2, l3, l4⟩ := Params.make_limits hp
  obtain ⟨f1, f2⟩ := Params.make_flags hp
  obtain ⟨st1, -⟩ := strictRates_default (by norm_num) hp
  set q := p.setStrAlgo "acmaes" with hq
  obtain ⟨cd, hcd⟩ := setStrAlgo_single p (a := "acmaes") (by simp)
  have hq' : q = { p with algo := 3 } := by
    rw [hq]; unfold Params.setStrAlgo
    rw [show mapFind Params.algoTable "acmaes" = some 3 by decide, show Params.contains "acmaes" "sep" = false by decide,
      show Params.contains "acmaes" "vd" = false by decide]
    simp
  have hto : toParams clock x0 sigma0 "acmaes" (some (List.ofFn lb)) none false none [] = .ok ⟨.nb, q⟩ :=
    PyOut.bind_eq_ok.2 ⟨⟨.nb, p⟩, PyOut.bind_eq_ok.2 ⟨p, PyOut.lift_ok.2 hp, rfl⟩, rfl⟩
  set e0 : Env n := Env.basic (fun _ _ => .num 0) (fun _ _ => 0) with he0
  have ready : ∀ env : Env n, ∃ s, Strat.new env .active q = .ok s ∧ RunReady .active s := by
    intro env
    rw [hq']
    exact ready_of (by decide) (.other (.make hp)
      ⟨rfl, rfl, rfl, rfl, rfl, rfl, rfl, rfl, rfl, rfl, rfl, rfl, rfl, rfl, rfl, rfl, rfl⟩) ⟨st1.1, st1.2⟩ f2 l4 u2 u1 u3 u10
      l1 l2 u6
  obtain ⟨s0, hs0, -⟩ := ready e0
  obtain ⟨A, hA, hAs⟩ := C19_full e0.eig (1 : Mat n) PD_one.psd
  set w : Vec n := Aᵀ.mulVec fun i => (lb i - 1 - s0.sol.xmean i) / sigma0 with hw
  set env : Env n := { e0 with z := fun _ => w } with henv
  obtain ⟨s, hs1, hR⟩ := ready env
  have mk : ∀ (e : Env n) (s : Strat n), e.rnd = e0.rnd → Strat.new e .active q = .ok s →
      initialMean q (e0.rnd 0) = .ok s.sol.xmean ∧ s.sol.sigma = sigma0 ∧ s.sol.cov = 1 ∧ s.sol.hasCov = true ∧
        s.niter = 0 ∧ s.nz = 0 := by
    intro e s her h
    have hsol := h
    unfold Strat.new at hsol
    obtain ⟨⟨p', sol⟩, hmk, hsol⟩ := Out.bind_eq_ok.1 hsol
    injection hsol with hsol
    obtain ⟨m1, -, -, mF, m5, -, -, -, -, mc, -⟩ := Sol.make_eq_ok hmk
    rw [← her, ← hsol]
    refine ⟨m1, ?_, mF.cov, ?_, rfl, rfl⟩
    · show sol.sigma = sigma0
      rw [m5, show q.sigmaInit = sigma0 by rw [hq']; exact u14, if_pos hs]
    · show sol.hasCov = true
      rw [mc, show q.sep = false by rw [hq']; exact f1, show q.vd = false by rw [hq']; exact f2]; rfl
  obtain ⟨a1, -⟩ := mk e0 s0 rfl hs0
  obtain ⟨b1, b2, b3, b4, b5, b6⟩ := mk env s rfl hs1
  have hxm : s.sol.xmean = s0.sol.xmean := by rw [a1] at b1; injection b1 with b1; exact b1.symm
  have hsp := (begins_new hs1).params
  have hAl : AskLive s := by
    refine ⟨?_, ?_, ?_, fun _ => ⟨b4, fun h => absurd b5 h⟩, fun h => ?_, fun h => ?_⟩
    · rw [hsp, hq']; show ∀ r ∈ p.fixedP, _
      rw [u11]; intro r hr; cases hr
    · rw [hsp, hq']; exact f2
    · rw [hsp, hq']; exact u2
    · rw [hsp, hq'] at h; exact absurd (f1.symm.trans h) (by decide)
    · rw [hsp, hq'] at h; exact absurd h u3
  obtain ⟨pop, s1, hask, -⟩ := Strat.ask_total (env := env) hAl
  have hlam : 0 < s.p.lambda := by
    rw [hsp, hq']
    show 0 < p.lambda
    have := (usual_default (kind := .plain) (by norm_num) hp (by decide)).1.configured.good.1.lambda
    omega
  obtain ⟨x, hx, hx'⟩ := hAs env s s1 pop rfl b3 (by rw [hsp, hq']; exact f1) (by rw [hsp, hq']; exact f2)
    (by rw [hsp, hq']; exact u2) (Or.inr b5) (Or.inr b5) hask 0 hlam
  refine ⟨env, ⟨.nb, q⟩, s, pop, s1, x, hto, hs1, hask, hx, ?_, fun i => ?_⟩
  · show phenoV q.gp x = .ok x
    rw [hq']; show phenoV p.gp x = .ok x
    rw [u10, phenoV_plain]
  · rw [hx' i (by
      intro v hv
      rw [hsp, hq'] at hv
      have : (i.val, v) ∈ p.fixedP := hv
      rw [u11] at this; cases this)]
    rw [b2, hxm]
    have : A.mulVec (env.z (s.nz + 0)) i = (lb i - 1 - s0.sol.xmean i) / sigma0 := by
      show A.mulVec w i = _
      rw [hw, Matrix.mulVec_mulVec, hA, Matrix.one_mulVec]
    rw [this, mul_div_cancel₀ _ hs.ne']
    linarith

/-- **C103** fails for three keywords that have a setter, but none of one value: each call with one of them raises an exception.
(`sep` and `noisy` can be had by other means, fixed parameters by the setter itself.) -/
theorem C103_keywords_false (clock : ℕ) (x0 : Vec n) (sigma0 : ℝ) (algo : String) (lbounds ubounds : Option (List ℝ))
    (scaling : Bool) (vscaling : Option (List ℝ)) (kwargs : List PyKw)
    (h : PyKw.sep ∈ kwargs ∨ PyKw.noisy ∈ kwargs ∨ PyKw.fixedP ∈ kwargs) :
    ∃ e, toParams clock x0 sigma0 algo lbounds ubounds scaling vscaling kwargs = .error e := by
  cases ht : toParams clock x0 sigma0 algo lbounds ubounds scaling vscaling kwargs with
  | error e => exact ⟨e, rfl⟩
  | ok pp =>
    exfalso
    obtain ⟨c, -, h1⟩ := PyOut.bind_eq_ok.1 ht
    obtain ⟨q, hq, -⟩ := PyOut.bind_eq_ok.1 h1
    have key : ∀ (l : List PyKw) (p q : Params n) (kw : PyKw), kw ∈ l → (∀ r s : Params n, kw.call clock r ≠ .ok s) →
        callAll clock l p ≠ .ok q := by
      intro l
      induction l with
      | nil => intro p q kw h; cases h
      | cons k l ih =>
        intro p q kw hmem hf hh
        obtain ⟨p1, h1, h2⟩ := PyOut.bind_eq_ok.1 hh
        rcases List.mem_cons.1 hmem with rfl | hmem
        · exact hf _ _ h1
        · exact ih p1 q kw hmem hf h2
    rcases h with h | h | h
    · exact key _ _ _ _ h (fun r s hh => nomatch hh) hq
    · exact key _ _ _ _ h (fun r s hh => nomatch hh) hq
    · exact key _ _ _ _ h (fun r s hh => nomatch hh) hq

/-- **C103** fails for `get_solution_sepcov`, "only for sep algorithms": after a separable search it reads an array of the
dimension squared from an empty matrix; after a search with full covariance it gives the full matrix. -/
theorem C103_sepcov_false (env : Env n) (kind : CovKind) (p : Params n) (s s1 : Strat n) (m : ℕ)
    (h0 : Strat.new env kind p = .ok s) (h1 : s.generations env m = .ok s1) (hsep : p.sep = true) :
    pySepcov s1.sol = .error .ub ∧ ∀ t : Sol n, t.hasCov = true → pySepcov t = .ok t.cov := by
  have hc : s.sol.hasCov = false := by
    have h0' := h0
    unfold Strat.new at h0'
    obtain ⟨⟨p', sol⟩, hmk, h0'⟩ := Out.bind_eq_ok.1 h0'
    injection h0' with h0'
    rw [← h0']
    obtain ⟨-, -, -, -, -, -, -, -, -, mc, -⟩ := Sol.make_eq_ok hmk
    show sol.hasCov = false
    rw [mc, hsep]; rfl
  have hc1 := generations_hasCov m (by rw [(begins_new h0).params]; exact hsep) h1
  refine ⟨?_, fun t ht => ?_⟩
  · unfold pySepcov pyCov; rw [hc1, hc]; rfl
  · unfold pySepcov pyCov; rw [ht]; rfl

end Libcmaes
