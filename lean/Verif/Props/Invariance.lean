import Verif.Lemmas.Sim
import Verif.Lemmas.Witness
import Verif.Props.Total
import Verif.Spec.Invariance

/-!
# C31, C32, C33, C34: invariance under transformations of the objective and of the search space
-/

namespace Libcmaes

open Spec Finset

variable {n : ℕ}

/-- **C31.** Only the order of objective values matters: with `g(f)` in place of `f`, `g` strictly
increasing, any number of generations go through the same distributions, with the same candidate points and
the same best points, for the default, the active and the VD update, with or without bounds, scaling, fixed
parameters, elitism, two-point adaptation and maximisation. -/
theorem C31_rank_invariance (env : Env n) (kind : CovKind) (p : Params n) (g : FVal → FVal)
    (hg : OrderPreserving g) (hp : GoodParams p) (huh : p.uh = false) (hgr : p.withGradient = false)
    (s s1 : Strat n) (k : ℕ) (h0 : Strat.new env kind p = .ok s) (h1 : s.generations env (k + 1) = .ok s1) :
    ∃ s' s1', Strat.new { env with f := fun k x => g (env.f k x) } kind p = .ok s' ∧
      s'.generations { env with f := fun k x => g (env.f k x) } (k + 1) = .ok s1' ∧
      SameSearch id 1 s1.sol s1'.sol ∧
      SamePoints id (fun v => seen p.maximize (g (seen p.maximize v))) s1.sol s1'.sol := by
  set D : Aff n := ⟨1, fun _ => 0, fun v => seen p.maximize (g (seen p.maximize v)), p.maximize, p.ftarget⟩ with hD
  have hpt : D.pt = id := by funext x i; show 1 * x i + 0 = x i; ring
  have hpar : D.par p = p := by unfold Aff.par; rw [hpt]; simp [hD]
  have hseen : ∀ v, seen p.maximize (seen p.maximize v) = v := by
    intro v; unfold seen; split_ifs
    · exact v.neg_neg'
    · rfl
  have hmono : D.Mono := by
    intro a b
    show FVal.lt (seen _ (g (seen _ a))) (seen _ (g (seen _ b))) ↔ _
    unfold seen
    split_ifs
    · rw [FVal.lt_neg, hg, FVal.lt_neg]
    · exact hg a b
  obtain ⟨J, r0, hc⟩ := Aff.new_map (D := D) one_pos
    (env' := { env with f := fun k x => g (env.f k x) }) rfl (Or.inr rfl)
    (fun m hm => by rw [hpar, hpt]; exact hm) h0
  have hsp := (Strat.new_ok h0).2.2.2.1
  have hneg := (Strat.new_ok h0).2.2.2.2.2.2.2.2.2.1
  obtain ⟨J1, r1, hc1, hcs⟩ := Aff.generations_map (D := D) hmono one_pos (env := env)
    (env' := { env with f := fun k x => g (env.f k x) }) rfl rfl rfl (s := s)
    (fun k x => by
      rw [hpt, hneg]
      show seen p.maximize (g (env.f k x)) = seen p.maximize (g (seen p.maximize (seen p.maximize (env.f k x))))
      rw [hseen])
    (by rw [hsp]; exact huh) (by rw [hsp]; exact hgr) (by rw [hsp]; exact hp.weights.sum_one)
    (fun x y h => by rw [hpt]; exact h) (fun x y h => by rw [hpt]; exact h) hc (k + 1) h1
  refine ⟨_, _, by rw [← r0, hpar], r1, ?_, ?_⟩
  · have := Aff.same (D := D) (J := J1) (s := s1)
    rw [hpt] at this
    exact this
  · have := Aff.points (D := D) (J := J1) (s := s1) (hcs (Nat.succ_pos _)) (bestHist_ne h0 h1)
    rw [hpt] at this
    exact this

/-- The affine map `x ↦ a x + t`. -/
def affine (a : ℝ) (t x : Vec n) : Vec n := fun i => a * x i + t i

/-- The parameters of the corresponding run: the start (or the box of starts) moved and the step size
magnified. -/
def Params.movedBy (p : Params n) (a : ℝ) (t : Vec n) : Params n :=
  { p with x0min := affine a t p.x0min, x0max := affine a t p.x0max, sigmaInit := a * p.sigmaInit }

/-- The start is not the code for "random start" (src/cmasolutions.cc:45-49). -/
def StartGiven (p : Params n) : Prop := ¬ (p.x0min = p.x0max ∧ p.x0min = fun _ => -dblMax)

/-- C32 and C33 together: searching `f'` with `f'(a x + t) = f(x)`, from a start moved by the same map, with
`a` times the step size, passes through the distributions of the search of `f` moved by that map. -/
theorem C33_affine (env : Env n) (f' : ℕ → Vec n → FVal) (kind : CovKind) (p : Params n) (a : ℝ) (t : Vec n)
    (ha : 0 < a) (hf : ∀ k x, f' k (affine a t x) = env.f k x) (hp : GoodParams p) (huh : p.uh = false)
    (hgr : p.withGradient = false) (hgp : p.gp = GenoPheno.plain) (hfp : p.fixedP = [])
    (hst : StartGiven p) (hst' : StartGiven (p.movedBy a t)) (hsg : 0 < p.sigmaInit ∨ a = 1)
    (s s1 : Strat n) (k : ℕ) (h0 : Strat.new env kind p = .ok s) (h1 : s.generations env (k + 1) = .ok s1) :
    ∃ s' s1', Strat.new { env with f := f' } kind (p.movedBy a t) = .ok s' ∧
      s'.generations { env with f := f' } (k + 1) = .ok s1' ∧
      SameSearch (affine a t) a s1.sol s1'.sol ∧ SamePoints (affine a t) id s1.sol s1'.sol := by
  set D : Aff n := ⟨a, t, id, p.maximize, p.ftarget⟩ with hD
  have hpar : D.par p = p.movedBy a t := rfl
  have hsp := (Strat.new_ok h0).2.2.2.1
  have hneg := (Strat.new_ok h0).2.2.2.2.2.2.2.2.2.1
  obtain ⟨J, r0, hc⟩ := Aff.new_map (D := D) ha (env' := { env with f := f' }) rfl hsg
    (fun m hm => by
      unfold initialMean at hm ⊢
      simp only at hm ⊢
      rw [hpar, show (p.movedBy a t).fixedP = p.fixedP from rfl, show (p.movedBy a t).gp = p.gp from rfl]
      rw [hfp, hgp] at hm ⊢
      rw [setFixed_nil, Out.ok_bind] at hm ⊢
      unfold scaleToInternalV at hm ⊢
      simp only [GenoPheno.plain] at hm ⊢
      injection hm with hm
      congr 1
      rw [← hm]
      have hinj : (p.movedBy a t).x0min = (p.movedBy a t).x0max ↔ p.x0min = p.x0max := by
        constructor
        · intro h
          funext i
          have : a * p.x0min i + t i = a * p.x0max i + t i := congrFun h i
          have := mul_left_cancel₀ ha.ne' (add_right_cancel this)
          exact this
        · intro h
          show affine a t _ = affine a t _
          rw [h]
      by_cases he : p.x0min = p.x0max
      · rw [if_pos he, if_pos (hinj.2 he), if_neg fun h => hst ⟨he, h⟩,
          if_neg fun h => hst' ⟨hinj.2 he, h⟩]
        rfl
      · rw [if_neg he, if_neg fun h => he (hinj.1 h)]
        funext i
        show 0.5 * (env.rnd 0 i + 1) * ((a * p.x0max i + t i) - (a * p.x0min i + t i)) + (a * p.x0min i + t i) =
          a * (0.5 * (env.rnd 0 i + 1) * (p.x0max i - p.x0min i) + p.x0min i) + t i
        ring) h0
  obtain ⟨J1, r1, hc1, hcs⟩ := Aff.generations_map (D := D) (fun _ _ => Iff.rfl) ha (env := env)
    (env' := { env with f := f' }) rfl rfl rfl (s := s)
    (fun k x => by
      rw [hneg]
      show negIf p.maximize (f' k (affine a t x)) = _
      rw [hf]
      rfl)
    (by rw [hsp]; exact huh) (by rw [hsp]; exact hgr) (by rw [hsp]; exact hp.weights.sum_one)
    (fun x y h => by
      rw [hsp] at h ⊢
      simp only [hfp] at h ⊢
      rw [setFixed_nil] at h ⊢
      injection h with h
      rw [h])
    (fun x y h => by
      rw [hsp] at h ⊢
      simp only [hgp] at h ⊢
      rw [phenoV_plain] at h ⊢
      injection h with h
      rw [h]) hc (k + 1) h1
  exact ⟨_, _, r0, r1, Aff.same (D := D), Aff.points (D := D) (hcs (Nat.succ_pos _)) (bestHist_ne h0 h1)⟩

/-- **C32.** Searching `x ↦ f(x - t)` from `x0 + t` gives the same trajectory shifted by `t`. -/
theorem C32_translation (env : Env n) (kind : CovKind) (p : Params n) (t : Vec n) (hp : GoodParams p)
    (huh : p.uh = false) (hgr : p.withGradient = false) (hgp : p.gp = GenoPheno.plain) (hfp : p.fixedP = [])
    (hst : StartGiven p) (hst' : StartGiven { p with x0min := p.x0min + t, x0max := p.x0max + t })
    (s s1 : Strat n) (k : ℕ) (h0 : Strat.new env kind p = .ok s) (h1 : s.generations env (k + 1) = .ok s1) :
    ∃ s' s1', Strat.new { env with f := fun k x => env.f k (x - t) } kind
        { p with x0min := p.x0min + t, x0max := p.x0max + t } = .ok s' ∧
      s'.generations { env with f := fun k x => env.f k (x - t) } (k + 1) = .ok s1' ∧
      SameSearch (· + t) 1 s1.sol s1'.sol ∧ SamePoints (· + t) id s1.sol s1'.sol := by
  have e1 : affine 1 t = (· + t) := by funext x i; show 1 * x i + t i = x i + t i; ring
  have e2 : p.movedBy 1 t = { p with x0min := p.x0min + t, x0max := p.x0max + t } := by
    unfold Params.movedBy
    rw [e1, one_mul]
  have := C33_affine env (fun k x => env.f k (x - t)) kind p 1 t one_pos
    (fun k x => by rw [e1]; show env.f k (x + t - t) = _; rw [add_sub_cancel_right]) hp huh hgr hgp hfp hst
    (by rw [e2]; exact hst') (Or.inr rfl) s s1 k h0 h1
  rw [e2, e1] at this
  exact this

/-- **C33.** Searching `x ↦ f(x / c)`, `c > 0`, from `c x0` with step size `c sigma` gives the same trajectory
multiplied by `c`, with the same covariance. -/
theorem C33_scale (env : Env n) (kind : CovKind) (p : Params n) (c : ℝ) (hc : 0 < c) (hp : GoodParams p)
    (huh : p.uh = false) (hgr : p.withGradient = false) (hgp : p.gp = GenoPheno.plain) (hfp : p.fixedP = [])
    (hst : StartGiven p)
    (hst' : StartGiven { p with x0min := c • p.x0min, x0max := c • p.x0max, sigmaInit := c * p.sigmaInit })
    (hsg : 0 < p.sigmaInit) (s s1 : Strat n) (k : ℕ) (h0 : Strat.new env kind p = .ok s)
    (h1 : s.generations env (k + 1) = .ok s1) :
    ∃ s' s1', Strat.new { env with f := fun k x => env.f k (c⁻¹ • x) } kind
        { p with x0min := c • p.x0min, x0max := c • p.x0max, sigmaInit := c * p.sigmaInit } = .ok s' ∧
      s'.generations { env with f := fun k x => env.f k (c⁻¹ • x) } (k + 1) = .ok s1' ∧
      SameSearch (c • ·) c s1.sol s1'.sol ∧ SamePoints (c • ·) id s1.sol s1'.sol := by
  have e1 : affine c (fun _ => 0) = (c • · : Vec n → Vec n) := by
    funext x i; show c * x i + 0 = c * x i; ring
  have e2 : p.movedBy c (fun _ => 0) =
      { p with x0min := c • p.x0min, x0max := c • p.x0max, sigmaInit := c * p.sigmaInit } := by
    unfold Params.movedBy
    rw [e1]
  have := C33_affine env (fun k x => env.f k (c⁻¹ • x)) kind p c (fun _ => 0) hc
    (fun k x => by rw [e1]; show env.f k (c⁻¹ • c • x) = _; rw [smul_smul, inv_mul_cancel₀ hc.ne', one_smul])
    hp huh hgr hgp hfp hst
    (by rw [e2]; exact hst') (Or.inl hsg) s s1 k h0 h1
  rw [e2, e1] at this
  exact this

/-- A set-up that meets the hypotheses of C31, C32 and C33, in any dimension and for any number of
generations: default parameters, start at the origin, step size 1; the objective is the sphere function, the
random columns are arbitrary. -/
theorem C33_witness (hn : 1 ≤ n) (z : ℕ → Vec n) (k : ℕ) :
    ∃ (env : Env n) (p : Params n) (s s1 : Strat n),
      env.f = (fun _ x => FVal.ofReal (sqNorm x)) ∧ env.z = z ∧
      GoodParams p ∧ p.uh = false ∧ p.withGradient = false ∧ p.gp = GenoPheno.plain ∧ p.fixedP = [] ∧
      StartGiven p ∧ StartGiven { p with x0min := p.x0min + fun _ => 1, x0max := p.x0max + fun _ => 1 } ∧
      StartGiven { p with x0min := (2 : ℝ) • p.x0min, x0max := (2 : ℝ) • p.x0max, sigmaInit := 2 * p.sigmaInit } ∧
      0 < p.sigmaInit ∧ Strat.new env .plain p = .ok s ∧ s.generations env (k + 1) = .ok s1 := by
  set env : Env n := Env.basic (fun _ x => FVal.ofReal (sqNorm x)) z with henv
  obtain ⟨p, s, hp, hs, hk⟩ := C67_default hn env .plain (fun _ => 0) 1 0 0 (by decide) (fun _ _ => trivial)
  obtain ⟨hu, hgp, hfx, hsg, hx1, hx2⟩ := usual_default (by norm_num) hp (kind := .plain) (by decide)
  obtain ⟨s1, h1⟩ := hk (k + 1)
  have hd : (0 : ℝ) < dblMax := by have := dblMax_ge; linarith
  refine ⟨env, p, s, s1, rfl, rfl, hu.configured.good.1, hu.uh, hu.grad, hgp, hfx, ?_, ?_, ?_, by rw [hsg]; norm_num,
    hs, h1⟩
  · rintro ⟨-, h⟩
    have := congrFun h ⟨0, hn⟩
    rw [hx1] at this
    simp only at this
    linarith
  · rintro ⟨-, h⟩
    have := congrFun h ⟨0, hn⟩
    simp only [hx1, Pi.add_apply] at this
    linarith
  · rintro ⟨-, h⟩
    have := congrFun h ⟨0, hn⟩
    simp only [hx1, Pi.smul_apply, smul_eq_mul] at this
    linarith

/-- Every strictly increasing function of the extended reals is admissible in C31. -/
theorem C31_monotone (h : EReal → EReal) (hh : StrictMono h) :
    OrderPreserving fun v => match v with | .nan => .nan | .num a => .num (h a) := by
  intro a b
  cases a <;> cases b <;> simp [FVal.lt, hh.lt_iff_lt]

/-- For instance adding a constant. -/
example : StrictMono fun a : EReal => a + (1 : ℝ) := fun _ _ h => EReal.add_lt_add_right_coe h 1

/-- **C34.** If the objective values are numbers and pairwise distinct, `tell` gives the same result (the
whole state: mean, step size, covariance, paths, best candidates, histories) whatever the order in which the
candidates are listed. -/
theorem C34_order (env : Env n) (s : Strat n) (cs : List (Cand n)) (huh : s.p.uh = false)
    (hp : cs.Perm s.sol.cands) (hnum : ∀ c ∈ s.sol.cands, c.fvalue.IsNum)
    (hd : (s.sol.cands.map (·.fvalue)).Nodup) :
    ({ s with sol := { s.sol with cands := cs } } : Strat n).tell env = s.tell env := by
  have hsort : stableSort candLt cs = stableSort candLt s.sol.cands := by
    have w1 : StrictWeakOn candLt s.sol.cands := (strictWeakOn_fval _ _).2 (Or.inl hnum)
    have w2 : StrictWeakOn candLt cs :=
      (strictWeakOn_fval _ _).2 (Or.inl fun c hc => hnum c (hp.mem_iff.1 hc))
    obtain ⟨o1, e1, t1⟩ := stableSort_sorts w1
    obtain ⟨o2, e2, t2⟩ := stableSort_sorts w2
    rw [e1, e2]
    congr 1
    refine List.Perm.eq_of_pairwise (le := fun a b => ¬ candLt b a) ?_ t2.sorted t1.sorted
      (t2.perm.trans (hp.trans t1.perm.symm))
    intro a b ha hb h1 h2
    have ha' : a ∈ s.sol.cands := hp.mem_iff.1 (t2.perm.mem_iff.1 ha)
    have hb' : b ∈ s.sol.cands := t1.perm.mem_iff.1 hb
    have : a.fvalue = b.fvalue := FVal.eq_of_not_lt (hnum a ha') (hnum b hb') h2 h1
    exact List.inj_on_of_nodup_map hd ha' hb' this
  have hrank : ({ s with sol := { s.sol with cands := cs } } : Strat n).rank env = s.rank env := by
    unfold Strat.rank
    rw [if_neg (by simp [huh]), if_neg (by simp [huh])]
    unfold Sol.sortCandidates
    simp only
    rw [hsort]
  unfold Strat.tell
  rw [hrank]

/-- Two candidates listed in the other order, with the values 2 and 1. -/
example : [(⟨.ofReal 2, fun _ => 0, 0⟩ : Cand 1), ⟨.ofReal 1, fun _ => 5, 1⟩].Perm
    [⟨.ofReal 1, fun _ => 5, 1⟩, ⟨.ofReal 2, fun _ => 0, 0⟩] ∧
    ([(⟨.ofReal 1, fun _ => 5, 1⟩ : Cand 1), ⟨.ofReal 2, fun _ => 0, 0⟩].map (·.fvalue)).Nodup := by
  refine ⟨List.Perm.swap _ _ _, ?_⟩
  simp only [FVal.ofReal, List.map_cons, List.map_nil, List.nodup_cons, List.mem_singleton, FVal.num.injEq,
    EReal.coe_eq_coe_iff]
  norm_num

end Libcmaes
