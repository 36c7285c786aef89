import Verif.Lemmas.Sigmas
import Verif.Props.Init
import Verif.Props.Law

/-!
# C99: a vector of starting step sizes

`Params.makeSigmas bounded scaled x0 sigma …` is the constructor of `CMAParameters` that takes a vector of step sizes;
`bounded` and `scaled` say which transform the type parameter selects.
-/

namespace Libcmaes

open MeasureTheory ProbabilityTheory Matrix WithLp Spec

variable {n : ℕ} {Ω : Type*} [MeasurableSpace Ω] {P : Measure Ω}

/-- **C99**, the part that holds: with linear scaling and without bounds, the points at which the objective is
evaluated in the first generation are independent, and each is normal around `x0` with independent coordinates whose
standard deviations are proportional to the step sizes given.  The factor is the smallest of them, where the full
statement has 1. -/
theorem C99_start_partial {Z : ℕ → Ω → Vec n} (hZ : StdDraws P Z) (env0 env : Env n) (kind : CovKind) (x0 sigma : Vec n)
    (lambda : ℤ) (lb ub : List ℝ) (seed clock : ℕ) (p : Params n) (s0 : Strat n) (pop phen : Ω → List (Vec n)) (s1 : Ω → Strat n)
    (hs : ∀ i, 0 < sigma i) (hx : x0 ≠ fun _ => -dblMax)
    (hp : Params.makeSigmas false true x0 (List.ofFn sigma) lambda lb ub seed clock = .ok p)
    (h0 : Strat.new env0 kind p = .ok s0) (ha : ∀ ω, s0.ask (drawn env Z ω) = .ok (pop ω, s1 ω))
    (hph : ∀ ω, (s1 ω).phenoCols (pop ω) = .ok (phen ω)) :
    ∃ m, (∀ i, m ≤ sigma i) ∧ (∃ i, m = sigma i) ∧ Sampled P p x0 m (diagonal fun i => sigma i ^ 2) phen := by
  obtain ⟨m, gp, h1, ⟨i0, h2⟩, hgp, hmk⟩ := makeSigmas_ok (fun i => (hs i).ne') hp
  have hgp' : gp = scaledBy fun i => 1 / sigma i := (Except.ok.inj hgp).symm
  have hinv : ∀ i, 1 / sigma i ≠ 0 := fun i => (one_div_pos.2 (hs i)).ne'
  obtain ⟨hmean, A, hA, hask⟩ := first_candidates hmk (h2 ▸ hs i0) hx h0 env.eig
  rw [hgp', scaleToInternalV_scaledBy] at hmean
  have hmean : s0.sol.xmean = fun i => x0 i * (1 / sigma i) := (Except.ok.inj hmean).symm
  have hfx : p.fixedP = [] := (Params.make_plain hmk).2.2.2.2.2.2.2.2.2.2.1
  refine ⟨m, h1, ⟨i0, h2⟩, sampled_of hZ (A := diagonal sigma * A) (nz := s0.nz) ?_ (fun ω => ?_) (fun ω x _ i v hq => ?_) fun ω j hj => ?_⟩
  · rw [transpose_mul, Matrix.mul_assoc, ← Matrix.mul_assoc A, hA, Matrix.one_mul, diagonal_transpose, diagonal_mul_diagonal]
    congr 1
    funext i
    ring
  · have e := Out.mapM_length (hph ω)
    rw [← e]
    exact (hask (drawn env Z ω) _ _ rfl (ha ω)).2.1
  · rw [hfx] at hq; simp at hq
  · obtain ⟨hg1, hlen, hc⟩ := hask (drawn env Z ω) _ _ rfl (ha ω)
    obtain ⟨x, hx1, hx2⟩ := hc j hj
    have hm := Out.mapM_eq_ok.1 (hph ω)
    rw [List.forall₂_iff_get] at hm
    obtain ⟨hl, hm⟩ := hm
    obtain ⟨hj1, hj2⟩ := List.getElem?_eq_some_iff.1 hx1
    have := hm j hj1 (hl ▸ hj1)
    simp only [List.get_eq_getElem] at this
    rw [hg1, hgp', phenoV_scaledBy hinv] at this
    refine ⟨_, List.getElem?_eq_getElem (hl ▸ hj1), fun i _ => ?_⟩
    rw [← Except.ok.inj this, hj2]
    show x i / (1 / sigma i) = _
    rw [hx2 i, hmean, ← Matrix.mulVec_mulVec, mulVec_diagonal]
    have := (hs i).ne'
    field_simp
    rfl

/-- **C99**, what fails: unless the smallest step size is 1, no coordinate of any first point has the standard deviation
asked for. -/
theorem C99_std_false {Z : ℕ → Ω → Vec n} (hZ : StdDraws P Z) (env0 env : Env n) (kind : CovKind) (x0 sigma : Vec n)
    (lambda : ℤ) (lb ub : List ℝ) (seed clock : ℕ) (p : Params n) (s0 : Strat n) (pop phen : Ω → List (Vec n)) (s1 : Ω → Strat n)
    (hs : ∀ i, 0 < sigma i) (h1 : ∀ i, sigma i ≠ 1) (hx : x0 ≠ fun _ => -dblMax)
    (hp : Params.makeSigmas false true x0 (List.ofFn sigma) lambda lb ub seed clock = .ok p)
    (h0 : Strat.new env0 kind p = .ok s0) (ha : ∀ ω, s0.ask (drawn env Z ω) = .ok (pop ω, s1 ω))
    (hph : ∀ ω, (s1 ω).phenoCols (pop ω) = .ok (phen ω)) (r : ℕ) (hr : r < p.lambda) (i : Fin n) :
    cov[fun ω => (phen ω).getD r 0 i, fun ω => (phen ω).getD r 0 i; P] ≠ sigma i ^ 2 := by
  obtain ⟨m, _, ⟨i0, h3⟩, hS⟩ := C99_start_partial hZ env0 env kind x0 sigma lambda lb ub seed clock p s0 pop phen s1 hs hx
    hp h0 ha hph
  obtain ⟨_, _, _, _, _, hmk⟩ := makeSigmas_ok (fun i => (hs i).ne') hp
  have hfx : p.fixedP = [] := (Params.make_plain hmk).2.2.2.2.2.2.2.2.2.2.1
  rw [(C95_moments hS r hr i i (free_of_nil hfx i) (free_of_nil hfx i)).2, diagonal_apply_eq]
  intro h
  have hpos := pow_pos (hs i) 2
  have : m ^ 2 = 1 := mul_right_cancel₀ hpos.ne' (by rw [h, one_mul])
  have hm : m = 1 := by
    have hm0 : 0 < m := h3 ▸ hs i0
    nlinarith
  exact h1 i0 (h3 ▸ hm)

/-- **C99**, what fails: with the default transform the vector is reduced to its smallest entry, the
standard deviation of every coordinate. -/
theorem C99_unscaled_false {Z : ℕ → Ω → Vec n} (hZ : StdDraws P Z) (env0 env : Env n) (kind : CovKind) (x0 sigma : Vec n)
    (lambda : ℤ) (lb ub : List ℝ) (seed clock : ℕ) (p : Params n) (s0 : Strat n) (pop phen : Ω → List (Vec n)) (s1 : Ω → Strat n)
    (hs : ∀ i, 0 < sigma i) (hx : x0 ≠ fun _ => -dblMax)
    (hp : Params.makeSigmas false false x0 (List.ofFn sigma) lambda lb ub seed clock = .ok p)
    (h0 : Strat.new env0 kind p = .ok s0) (ha : ∀ ω, s0.ask (drawn env Z ω) = .ok (pop ω, s1 ω))
    (hph : ∀ ω, (s1 ω).phenoCols (pop ω) = .ok (phen ω)) :
    ∃ m, (∀ i, m ≤ sigma i) ∧ (∃ i, m = sigma i) ∧ Sampled P p x0 m 1 phen := by
  obtain ⟨m, gp, h1, ⟨i0, h2⟩, hgp, hmk⟩ := makeSigmas_ok (fun i => (hs i).ne') hp
  have hgp' : gp = GenoPheno.plain := (Except.ok.inj hgp).symm
  obtain ⟨hmean, A, hA, hask⟩ := first_candidates hmk (h2 ▸ hs i0) hx h0 env.eig
  have hmean : s0.sol.xmean = x0 := by
    rw [hgp'] at hmean
    exact (Except.ok.inj hmean).symm
  have hfx : p.fixedP = [] := (Params.make_plain hmk).2.2.2.2.2.2.2.2.2.2.1
  have e : ∀ ω, phen ω = pop ω := by
    intro ω
    have h := hph ω
    unfold Strat.phenoCols at h
    rw [(hask (drawn env Z ω) _ _ rfl (ha ω)).1, hgp', Out.mapM_eq_ok] at h
    simp only [phenoV_plain] at h
    refine (List.forall₂_eq_eq_eq ▸ (h.imp fun a b hab => ?_ : List.Forall₂ Eq (pop ω) (phen ω)) : pop ω = phen ω).symm
    exact Except.ok.inj hab
  refine ⟨m, h1, ⟨i0, h2⟩, sampled_of hZ hA (nz := s0.nz) (fun ω => ?_) (fun ω x _ i v hq => ?_) fun ω j hj => ?_⟩
  · rw [e]; exact (hask (drawn env Z ω) _ _ rfl (ha ω)).2.1
  · rw [hfx] at hq; simp at hq
  · obtain ⟨x, hx1, hx2⟩ := (hask (drawn env Z ω) _ _ rfl (ha ω)).2.2 j hj
    refine ⟨x, by rw [e]; exact hx1, fun i _ => ?_⟩
    rw [hx2 i, hmean]
    rfl

/-- **C99**, with bounds and linear scaling: if the bounds are given, whatever is evaluated lies in them. -/
theorem C99_box (hn : 1 ≤ n) (x0 sigma lb ub : Vec n) (lambda : ℤ) (seed clock : ℕ) (hs : ∀ i, 0 < sigma i)
    (hb : ∀ i, lb i < ub i) :
    ∃ p, Params.makeSigmas true true x0 (List.ofFn sigma) lambda (List.ofFn lb) (List.ofFn ub) seed clock = .ok p ∧
      SoundBoxTransform (List.ofFn lb) (List.ofFn ub) p.gp := by
  obtain ⟨g, hg, hS⟩ := C06_vectors_scaled (List.ofFn fun i => 1 / sigma i) (List.replicate n 0) (List.ofFn lb) (List.ofFn ub)
    (List.forall₂_iff_get.2 ⟨by simp, fun i h1 h2 => by simpa using hb _⟩) (by simp) (by simp)
    (by intro d hd; obtain ⟨i, rfl⟩ := (List.mem_ofFn' _ _).1 hd; exact one_div_pos.2 (hs i))
  obtain ⟨p, hp, hgp⟩ := makeSigmas_total hn (bounded := true) (scaled := true) x0 sigma lambda (List.ofFn lb) (List.ofFn ub)
    seed clock (fun i => (hs i).ne') (gp := g) (by
      unfold GenoPheno.ofScaling
      have e1 : (List.ofFn lb).isEmpty = false := by rw [List.isEmpty_eq_false_iff]; simp; omega
      have e2 : (List.ofFn ub).isEmpty = false := by rw [List.isEmpty_eq_false_iff]; simp; omega
      simp only [e1, e2]
      rw [List.take_of_length_le (by simp), List.take_of_length_le (by simp)]
      exact hg)
  exact ⟨p, hp, hgp ▸ hS⟩

/-- **C99**, what fails with bounds: without scaling the bounds given are dropped, and with scaling they may be left out by
the signature; in both cases the transform is left without bounds, and the first generation of any search reads beyond
its empty vectors. -/
theorem C99_bounds_false (hn : 1 ≤ n) (scaled : Bool) (x0 sigma : Vec n) (lambda : ℤ) (lb ub : List ℝ) (seed clock : ℕ)
    (hs : ∀ i, 0 < sigma i) (hb : scaled = true → lb = []) :
    ∃ p, Params.makeSigmas true scaled x0 (List.ofFn sigma) lambda lb ub seed clock = .ok p ∧
      ∀ (env0 env : Env n) (kind : CovKind) (s0 s1 : Strat n), Strat.new env0 kind p = .ok s0 → s0.generation env ≠ .ok s1 := by
  obtain ⟨sc, hsc⟩ : ∃ sc, GenoPheno.ofScaling true scaled (List.ofFn fun i => 1 / sigma i) (List.replicate n 0) lb ub =
      .ok ⟨.pwq Pwq.empty, none, sc⟩ := by
    rcases scaled with _ | _
    · exact ⟨_, rfl⟩
    · rw [hb rfl]; exact ⟨_, rfl⟩
  obtain ⟨p, hp, hgp⟩ := makeSigmas_total hn (bounded := true) x0 sigma lambda lb ub seed clock (fun i => (hs i).ne') hsc
  refine ⟨p, hp, fun env0 env kind s0 s1 h0 h => ?_⟩
  obtain ⟨_, hl0, _, hp0, _⟩ := Strat.new_ok h0
  obtain ⟨pop, s2, phen, _, _, ha, hph, _⟩ := generation_parts h
  obtain ⟨⟨_, _, _, _, _, _, _, _, _, e⟩, hlen⟩ := Strat.ask_frame ha
  have hg2 : s2.p.gp = ⟨.pwq Pwq.empty, none, sc⟩ := by
    rw [e]
    show s0.p.gp = _
    rw [hp0]
    exact hgp
  have hne : 0 < pop.length := by
    rw [hlen, hp0]
    show 0 < p.lambda
    omega
  have hne' : 0 < phen.length := by
    rw [← Out.mapM_length hph]
    exact hne
  obtain ⟨y, hy'⟩ := List.exists_mem_of_length_pos hne'
  obtain ⟨x, _, hy⟩ := Out.mapM_mem hph hy'
  rw [hg2] at hy
  exact pheno_noBounds hn x y hy

/-- The hypotheses of the laws above are met, e.g. by the step sizes 2, 3, 4, … and any starting point other than the
marker. -/
example (hn : 1 ≤ n) (scaled : Bool) (kind : CovKind) (hk : kind ≠ .vd) (x0 : Vec n) :
    ∃ (Ω : Type) (_ : MeasurableSpace Ω) (P : Measure Ω) (Z : ℕ → Ω → Vec n) (env0 env : Env n) (sigma : Vec n) (p : Params n) (s0 : Strat n)
      (pop phen : Ω → List (Vec n)) (s1 : Ω → Strat n), StdDraws P Z ∧ (∀ i, sigma i = i.val + 2) ∧
      Params.makeSigmas false scaled x0 (List.ofFn sigma) (-1) [] [] 1 1 = .ok p ∧ Strat.new env0 kind p = .ok s0 ∧
      (∀ ω, s0.ask (drawn env Z ω) = .ok (pop ω, s1 ω)) ∧ ∀ ω, (s1 ω).phenoCols (pop ω) = .ok (phen ω) := by
  obtain ⟨P, hZ⟩ := stdDraws_exist n
  set sigma : Vec n := fun i => i.val + 2 with hsg
  have hs : ∀ i, sigma i ≠ 0 := fun i => by
    have : (0 : ℝ) < sigma i := by rw [hsg]; positivity
    exact this.ne'
  set env : Env n := Env.basic (fun _ _ => .num 1) fun _ _ => 0 with henv
  obtain ⟨gp, hgp, hpheno, hint⟩ : ∃ gp, GenoPheno.ofScaling false scaled (List.ofFn fun i => 1 / sigma i) (List.replicate n 0) [] [] = .ok gp ∧
      (∀ x : Vec n, ∃ y, phenoV gp x = .ok y) ∧ ∀ x : Vec n, ∃ y, scaleToInternalV gp x = .ok y := by
    rcases scaled with _ | _
    · exact ⟨_, rfl, fun x => ⟨_, phenoV_plain x⟩, fun x => ⟨_, rfl⟩⟩
    · exact ⟨_, rfl, fun x => ⟨_, phenoV_scaledBy (fun i => one_div_ne_zero (hs i)) x⟩, fun x => ⟨_, scaleToInternalV_scaledBy _ x⟩⟩
  obtain ⟨p, hp, hpg⟩ := makeSigmas_total hn (bounded := false) x0 sigma (-1) [] [] 1 1 hs hgp
  obtain ⟨m, gp', _, _, _, hmk⟩ := makeSigmas_ok hs hp
  obtain ⟨hu, hg', _⟩ := usual_default (kind := kind) (by norm_num) hmk hk
  obtain ⟨s0, h0⟩ : ∃ s0, Strat.new env kind p = .ok s0 := by
    refine C18_construction_succeeds env kind p (by omega) (by have := hu.configured.good.1.lambda; omega)
      hu.configured.good.1.fixed_lt fun s hsc _ => ?_
    rw [hpg] at hsc
    rcases scaled with _ | _
    · rw [← Except.ok.inj hgp] at hsc; cases hsc
    · rw [← Except.ok.inj hgp] at hsc
      cases hsc
      exact ⟨by simp [LinScaling.ofVectors], by simp [LinScaling.ofVectors]⟩
  have hask : ∀ ω, ∃ r, s0.ask (drawn env (fun k (ω : ℕ → EuclideanSpace ℝ (Fin n)) => ofLp (ω k)) ω) = .ok r := by
    intro ω
    obtain ⟨pop, s1, h, -⟩ := Strat.ask_total (env := drawn env (fun k (ω : ℕ → EuclideanSpace ℝ (Fin n)) => ofLp (ω k)) ω)
      (askLive_new hu.configured hu.vd hu.grad hu.tpa h0)
    exact ⟨_, h⟩
  choose r hr using hask
  have hph : ∀ ω, ∃ phen, (r ω).2.phenoCols (r ω).1 = .ok phen := by
    intro ω
    obtain ⟨⟨_, _, _, _, _, _, _, _, _, e⟩, _⟩ := Strat.ask_frame (hr ω)
    have e2 : (r ω).2.p.gp = gp := by
      rw [e]
      show s0.p.gp = gp
      rw [(Strat.new_ok h0).2.2.2.1]
      exact hpg
    unfold Strat.phenoCols
    rw [e2]
    exact Out.mapM_ok_of fun x _ => hpheno x
  choose phen hphen using hph
  exact ⟨_, _, P, _, env, env, sigma, p, s0, fun ω => (r ω).1, phen, fun ω => (r ω).2, hZ, fun _ => rfl, hp, h0, hr, hphen⟩

end Libcmaes
