import Verif.Lemmas.Law
import Verif.Lemmas.Turn
import Verif.Lemmas.Points
import Verif.Props.Distribution

/-!
# Ranking by values that do not depend on the points
-/

namespace Libcmaes

open Spec Matrix Finset

variable {n : ℕ}

open Classical in
/-- The order in which `stable_sort` puts the indices `0 … l-1` of values `v`. -/
noncomputable def orderBy (v : ℕ → FVal) (l : ℕ) : List ℕ :=
  (List.range l).mergeSort fun a b => decide (¬ FVal.lt (v b) (v a))

theorem orderBy_perm (v : ℕ → FVal) (l : ℕ) : (orderBy v l).Perm (List.range l) := List.mergeSort_perm _ _

open Classical in
/-- The values get the order, the points follow. -/
theorem stableSort_orderBy {v : ℕ → FVal} {X : ℕ → Vec n} {l : ℕ} {cs : List (Cand n)}
    (h : stableSort candLt ((List.range l).map fun r => (⟨v r, X r, r⟩ : Cand n)) = .ok cs) :
    cs = (orderBy v l).map fun r => (⟨v r, X r, r⟩ : Cand n) := by
  unfold stableSort at h
  split_ifs at h
  injection h with h
  rw [← h]
  unfold orderBy
  rw [List.map_mergeSort]
  intro a _ b _
  rfl

/-- The values of the candidates by position, for an objective that does not look at the point. -/
noncomputable def neutralValue (env : Env n) (s : Strat n) (r : ℕ) : FVal :=
  negIf s.negate (env.f (s.calls.length + (s.order env s.p.lambda).idxOf r) 0)

/-- The ranking of a generation of a neutral objective: the `i`-th best is the candidate number `orderBy … i` of
`ask()`, in each outcome of the draws. -/
theorem neutral_ranked {Ω : Type*} {Z : ℕ → Ω → Vec n} {ω : Ω} {env : Env n} {s s1 s2 s3 : Strat n} {pop phen : List (Vec n)}
    (hN : Neutral env) (hc : s.sol.cands.length = s.p.lambda) (huh : s.p.uh = false) (hel : s.elitismOn = false)
    (hg : s.p.withGradient = false) (ht : s.p.tpa ≠ 2 ∨ s.niter = 0)
    (ha : s.ask (drawn env Z ω) = .ok (pop, s1)) (he : s1.eval (drawn env Z ω) pop phen = .ok s2)
    (htl : s2.tell (drawn env Z ω) = .ok s3) (i : ℕ) (hi : i < s.p.lambda) :
    ranked s3.sol.cands i = pop.getD ((orderBy (neutralValue env s) s.p.lambda).getD i 0) 0 := by
  obtain ⟨t, pop1, h1, h2, _⟩ := ask_plain hg ht ha
  obtain ⟨es, ei, ue, e1⟩ := Strat.askPrepare_frame h1
  obtain ⟨e2, _⟩ := Strat.askSample_frame h2
  have hpl := (Strat.ask_frame ha).2
  have es1 : s1 = { s with es := es, nz := s.nz + s.p.lambda, sol := { s.sol with eigeniter := ei, updatedEigen := ue } } := by
    rw [e2, e1]
  obtain ⟨hb1, hb2⟩ := Strat.eval_bounds he
  obtain ⟨s3', h3, e3⟩ := Strat.eval_ok (by rw [es1]; exact huh) he
  have hel1 : (s1.evaluated (drawn env Z ω) pop phen).elitismOn = false := by rw [es1]; exact hel
  have h3' : s3' = s1.evaluated (drawn env Z ω) pop phen := by
    unfold Strat.reinject at h3
    rw [if_neg (by rw [hel1]; simp)] at h3
    injection h3 with h3; exact h3.symm
  have hcs : s2.sol.cands = (List.range s.p.lambda).map fun r =>
      (⟨neutralValue env s r, colX pop r, r⟩ : Cand n) := by
    have e4 : s2.sol.cands = (s1.evaluated (drawn env Z ω) pop phen).sol.cands := by rw [e3, h3']; rfl
    rw [e4]
    apply List.ext_getElem?
    intro r
    rw [Strat.evaluated_cands hb1, List.getElem?_map, hpl]
    by_cases hr : r < s.p.lambda
    · rw [if_pos hr, List.getElem?_range hr]
      simp only [Option.map_some, Option.some.injEq, Cand.mk.injEq, and_true]
      unfold neutralValue
      rw [es1]
      exact congrArg _ (hN _ _ _)
    · rw [if_neg hr, List.getElem?_eq_none (by rw [es1]; show s.sol.cands.length ≤ r; omega), List.getElem?_eq_none (by simp; omega)]
      rfl
  obtain ⟨sol3, sol4, _, hc3, hsort, _, _⟩ := Strat.tell_step htl
  have hsort := hsort (by
    obtain ⟨_, _, _, _, _, _, e, _⟩ := Strat.eval_frame he
    rw [e, es1]; exact huh)
  rw [hcs] at hsort
  have hres := stableSort_orderBy hsort
  rw [← hc3, hres]
  have hlt : i < (orderBy (neutralValue env s) s.p.lambda).length := by
    rw [(orderBy_perm _ _).length_eq, List.length_range]; exact hi
  have hgd : (orderBy (neutralValue env s) s.p.lambda).getD i 0 = (orderBy (neutralValue env s) s.p.lambda)[i] := by
    rw [List.getD, List.getElem?_eq_getElem hlt, Option.getD_some]
  rw [hgd]
  unfold ranked
  rw [List.getElem?_map, List.getElem?_eq_getElem hlt]
  rfl

/-- The selection mass is that of the weights. -/
theorem Spec.Configured.selMass {p : Params n} (h : Configured p) :
    p.muw = 1 / ∑ i ∈ range p.mu, p.weights i ^ 2 := by
  have key : ∀ {a b : Params n}, initializeParameters a = .ok b → b.muw = 1 / ∑ i ∈ range b.mu, b.weights i ^ 2 := by
    intro a b hb
    have hs := initializeParameters_spec hb
    have hsum := sumRaw_pos hs.mu_pos
    rw [hs.muw, muwOf]
    simp only [hs.weights, div_pow]
    rw [← Finset.sum_div]
    have := sqRaw_pos hs.mu_pos
    simp only [sq]
    field_simp
  induction h with
  | make hm =>
    unfold Params.make at hm
    obtain ⟨l, -, hm⟩ := Out.bind_eq_ok.1 hm
    exact key hm
  | @call p q c _ hc hr ih =>
    cases c with
    | noisy =>
      change p.setNoisy = .ok q at hr
      unfold Params.setNoisy at hr
      obtain ⟨r, hr', hr⟩ := Out.bind_eq_ok.1 hr
      injection hr with hr
      subst hr
      have := key hr'
      exact this
    | tpa b => injection hr with hr; subst hr; exact ih
    | fix i v => injection hr with hr; subst hr; exact ih
    | unfix i => injection hr with hr; subst hr; exact ih
    | elitism e =>
      injection hr with hr; subst hr
      unfold Params.setElitism
      split_ifs <;> exact ih
    | algo a => injection hr with hr; subst hr; exact ih
  | sep _ h1 h2 ih => exact ih
  | @vd p _ h1 h2 h6 ih =>
    unfold Params.setVd
    by_cases hc : p.algo ≠ 12 ∧ p.algo ≠ 13 ∧ p.algo ≠ 14
    · rw [if_pos hc]; exact ih
    · rw [if_neg hc]; exact ih
  | other _ hs ih =>
    obtain ⟨e1, e2, e3, e4, _⟩ := hs
    rw [e4, e2, e3]; exact ih

/-- The population keeps its size. -/
theorem askRun_cands {env : Env n} {s s' : Strat n} {tr : List (List (Cand n))} (huh : s.p.uh = false)
    (hc : s.sol.cands.length = s.p.lambda) (h : AskRun env s tr s') : s'.sol.cands.length = s'.p.lambda := by
  have key := h.induct (past := []) (I := fun t _ => t.p.uh = false ∧ t.sol.cands.length = t.p.lambda) ?_ ?_ ⟨huh, hc⟩
  · exact key.2
  · intro t past b t' hi hh
    obtain ⟨k, r, e⟩ := Strat.stop_frame hh
    rw [e]; exact hi
  · intro t past pop s1 cols phen s2 s3 hi h1 h2 h3
    obtain ⟨⟨es, ei, ue, c, nz, x1, x2, p1, p2, e⟩, _⟩ := Strat.ask_frame h1
    obtain ⟨c2, nu, nzuh, lr, cu, cs, e1, hl, _⟩ := Strat.eval_frame h2
    obtain ⟨sol3, sol4, _, hc3, hsort, _, mx, mn, lv, le, e'⟩ := Strat.tell_step h3
    have hp : s2.p = t.p := by rw [e1, e]
    have h4 := (stableSort_eq_ok (hsort (by rw [hp]; exact hi.1))).2.perm.length_eq
    have hp3 : s3.p = t.p := by rw [e', ← hp]
    refine ⟨by show s3.p.uh = false; rw [hp3]; exact hi.1, ?_⟩
    show s3.sol.cands.length = s3.p.lambda
    rw [← hc3, h4, hp3, e1]
    show cs.length = _
    rw [hl, e]; exact hi.2

/-- The part of the update that C96 is about. -/
structure MeanAndPath (p : Params n) (B : Mat n) (s t : Sol n) : Prop where
  sigma : s.sigma ≠ 0
  mean : t.xmean = s.xmean + s.sigma • meanStep (constsOf p) (stateOf s) (ranked t.cands)
  path : t.psigma = (1 - p.csigma) • s.psigma + Real.sqrt (p.csigma * (2 - p.csigma) * p.muw) •
    B.mulVec (meanStep (constsOf p) (stateOf s) (ranked t.cands))

theorem meanAndPath_of {p : Params n} {B : Mat n} {s s3 s4 t : Sol n} (hw : GoodWeights p)
    (hps : p.factPs = Real.sqrt (p.csigma * (2 - p.csigma) * p.muw)) (hs : s3.sigma ≠ 0) (hc : s3.cands = t.cands)
    (h3 : stateOf s3 = stateOf s) (h4 : stateOf t = stateOf s4) (e1 : s4.xmean = recombine p s3.cands)
    (e2 : s4.psigma = (1 - p.csigma) • s3.psigma + p.factPs • B.mulVec (diffMean s3 (recombine p s3.cands))) :
    MeanAndPath p B s t := by
  have a1 : s3.xmean = s.xmean := congrArg CmaState.m h3
  have a2 : s3.sigma = s.sigma := congrArg CmaState.sigma h3
  have a3 : s3.psigma = s.psigma := congrArg CmaState.ps h3
  have b1 : t.xmean = s4.xmean := congrArg CmaState.m h4
  have b3 : t.psigma = s4.psigma := congrArg CmaState.ps h4
  refine ⟨a2 ▸ hs, ?_, ?_⟩
  · rw [b1, e1, recombine_eq_step hw s3 hs, a1, a2, h3, hc]
  · rw [b3, e2, diffMean_recombine hw, a3, h3, hc, hps]

/-- Full covariance: the inverse root used for the path depends on the covariance and the eigensolver only. -/
theorem turn_full (eig : EigSolver n) (C : Mat n) (hC : C.IsSymm) :
    ∃ B : Mat n, ∀ (env : Env n) (s s1 s2 s3 : Strat n) (pop cols phen : List (Vec n)), env.eig = eig →
      s.sol.cov = C → GoodParams s.p → s.p.factPs = Real.sqrt (s.p.csigma * (2 - s.p.csigma) * s.p.muw) →
      s.kind ≠ .vd → s.p.sep = false → s.p.vd = false → (s.niter = 0 ∨ s.p.lazyUpdate = false) → s.p.uh = false →
      s.ask env = .ok (pop, s1) → s1.eval env cols phen = .ok s2 → s2.tell env = .ok s3 →
      B * C * Bᵀ = 1 ∧ MeanAndPath s.p B s.sol s3.sol := by
  refine ⟨match inverseSqrt (eig.solve C) with | .ok b => b | .error _ => 1, ?_⟩
  intro env s s1 s2 s3 pop cols phen heig hcov hg hps hk hsep hvd hlz huh ha he ht
  obtain ⟨sol3, sol4, hu, b1, b2, b3, b4, b5, b6, b7, b8, b9, _⟩ := turn_update huh ha he ht
  obtain ⟨a1, a2, _⟩ := Strat.ask_eig ha hsep hvd hlz
  have hcsq : ∀ csq, csqinvOf s1.es sol3 = .ok csq → inverseSqrt (eig.solve C) = .ok csq := by
    intro csq h1
    unfold csqinvOf at h1
    rw [b6, a2, if_pos rfl, a1, heig, hcov] at h1
    exact h1
  have hfin : ∀ csq, csqinvOf s1.es sol3 = .ok csq →
      (match inverseSqrt (eig.solve C) with | .ok b => b | .error _ => 1) = csq ∧ csq * C * csqᵀ = 1 := by
    intro csq h1
    have h2 := hcsq csq h1
    have h3 := inverseSqrt_isInvSqrt eig hC h2
    refine ⟨by rw [h2], ?_⟩
    rw [h3.pd.symm]; exact h3.inv
  unfold covarianceUpdate at hu
  cases hkd : s.kind with
  | plain =>
    rw [hkd] at hu
    simp only at hu
    rw [if_neg (by simp [hsep])] at hu
    obtain ⟨hpre, _, csq, hb, h1, h2, rfl⟩ := covUpdateFull_ok hu
    obtain ⟨f1, f2⟩ := hfin csq h1
    rw [f1]
    exact ⟨f2, meanAndPath_of hg.weights hps (updatePre_ok hpre).2.2.1 b1 b3 b7 rfl rfl⟩
  | active =>
    rw [hkd] at hu
    simp only at hu
    rw [if_neg (by simp [hsep])] at hu
    obtain ⟨hpre, _, _, _, csq, hb, cm, h1, h2, h3, rfl⟩ := acovUpdateFull_ok hu
    obtain ⟨f1, f2⟩ := hfin csq h1
    rw [f1]
    have hra := recombineActive_eq hg.weights sol3
    exact ⟨f2, meanAndPath_of hg.weights hps (updatePre_ok hpre).2.2.1 b1 b3 b7 (by rw [← hra]; rfl) (by rw [← hra]; rfl)⟩
  | vd => exact absurd hkd hk

/-- The same for the diagonal model. -/
theorem turn_sep {env : Env n} {s s1 s2 s3 : Strat n} {pop cols phen : List (Vec n)} (hg : GoodParams s.p)
    (hps : s.p.factPs = Real.sqrt (s.p.csigma * (2 - s.p.csigma) * s.p.muw))
    (hk : s.kind ≠ .vd) (hsep : s.p.sep = true) (huh : s.p.uh = false)
    (ha : s.ask env = .ok (pop, s1)) (he : s1.eval env cols phen = .ok s2) (ht : s2.tell env = .ok s3) :
    (∀ i, 0 < s.sol.sepcov i) ∧
      MeanAndPath s.p (diagonal fun i => (Real.sqrt (s.sol.sepcov i))⁻¹) s.sol s3.sol := by
  obtain ⟨sol3, sol4, hu, b1, b2, b3, b4, b5, b6, b7, b8, b9, _⟩ := turn_update huh ha he ht
  have hfin : ∀ csq, sepcsqinvOf sol3 = .ok csq →
      (∀ i, 0 < s.sol.sepcov i) ∧ ∀ x : Vec n, (diagonal fun i => (Real.sqrt (s.sol.sepcov i))⁻¹).mulVec x = csq * x := by
    intro csq h1
    obtain ⟨hpos, hcsq⟩ := sepcsqinvOf_ok h1
    rw [b5] at hpos hcsq
    refine ⟨hpos, fun x => ?_⟩
    funext i
    rw [mulVec_diagonal, hcsq]
    show _ = Real.sqrt (1 / s.sol.sepcov i) * x i
    rw [Real.sqrt_div' _ (hpos i).le, Real.sqrt_one, one_div]
  unfold covarianceUpdate at hu
  cases hkd : s.kind with
  | plain =>
    rw [hkd] at hu
    simp only at hu
    rw [if_pos hsep] at hu
    obtain ⟨hpre, _, csq, hb, h1, h2, rfl⟩ := covUpdateSep_ok hu
    obtain ⟨f1, f2⟩ := hfin csq h1
    exact ⟨f1, meanAndPath_of hg.weights hps (updatePre_ok hpre).2.2.1 b1 b3 b7 rfl (by rw [f2]; rfl)⟩
  | active =>
    rw [hkd] at hu
    simp only at hu
    rw [if_pos hsep] at hu
    obtain ⟨hpre, _, _, _, csq, hb, cm, h1, h2, h3, rfl⟩ := acovUpdateSep_ok hu
    obtain ⟨f1, f2⟩ := hfin csq h1
    have hra := recombineActive_eq hg.weights sol3
    exact ⟨f1, meanAndPath_of hg.weights hps (updatePre_ok hpre).2.2.1 b1 b3 b7 (by rw [← hra]; rfl)
      (by rw [f2, ← hra]; rfl)⟩
  | vd => exact absurd hkd hk

/-- The mean step of a neutral generation: fixed weights on draws with fixed numbers. -/
theorem neutral_meanStep {p : Params n} {s : Sol n} {A : Mat n} {l : List ℕ} {x z : ℕ → Vec n} (hs : s.sigma ≠ 0)
    (hx : ∀ i < p.mu, x i = s.xmean + s.sigma • A.mulVec (z (l.getD i 0))) :
    meanStep (constsOf p) (stateOf s) x = ∑ i : Fin p.mu, p.weights i • A.mulVec (z (l.getD i 0)) := by
  unfold meanStep
  rw [← Fin.sum_univ_eq_sum_range (fun i => (constsOf p).w i • selStep (stateOf s) x i) (constsOf p).mu]
  refine Finset.sum_congr rfl fun i _ => ?_
  show p.weights i • (s.sigma⁻¹ • (x i - s.xmean)) = _
  rw [hx i i.2, add_sub_cancel_left, smul_smul s.sigma⁻¹, inv_mul_cancel₀ hs, one_smul]

theorem perm_getD_injective {l : List ℕ} {m k : ℕ} (h : l.Perm (List.range m)) (hk : k ≤ m) (c : ℕ) :
    Function.Injective fun i : Fin k => c + l.getD i 0 := by
  intro a b hab
  have hl : l.length = m := by rw [h.length_eq, List.length_range]
  have hnd : l.Nodup := h.nodup_iff.2 List.nodup_range
  have ha : a.val < l.length := by omega
  have hb : b.val < l.length := by omega
  have : l[a.val] = l[b.val] := by
    have : c + l.getD a 0 = c + l.getD b 0 := hab
    rw [List.getD, List.getElem?_eq_getElem ha, List.getD, List.getElem?_eq_getElem hb] at this
    simpa using this
  exact Fin.ext ((List.Nodup.getElem_inj_iff hnd).1 this)

theorem perm_getD_lt {l : List ℕ} {m i : ℕ} (h : l.Perm (List.range m)) (hi : i < m) : l.getD i 0 < m := by
  have hl : l.length = m := by rw [h.length_eq, List.length_range]
  have ha : i < l.length := by omega
  rw [List.getD, List.getElem?_eq_getElem ha]
  exact List.mem_range.1 (h.mem_iff.1 (List.getElem_mem ha))

open MeasureTheory ProbabilityTheory in
/-- The laws, from the formulas of the candidates and of the update. -/
theorem neutral_laws {Ω : Type*} [MeasurableSpace Ω] {P : Measure Ω} {Z : ℕ → Ω → Vec n} (hZ : StdDraws P Z)
    {p : Params n} {s : Sol n} {t : Ω → Sol n} {A B C : Mat n} {l : List ℕ} {nz : ℕ}
    (hp : GoodParams p) (hm : p.muw = 1 / ∑ i ∈ range p.mu, p.weights i ^ 2) (hA : A * Aᵀ = C)
    (hB : B * C * Bᵀ = 1) (hl : l.Perm (List.range p.lambda))
    (hr : ∀ ω, ∀ i < p.lambda, ranked (t ω).cands i = s.xmean + s.sigma • A.mulVec (Z (nz + l.getD i 0) ω))
    (ht : ∀ ω, MeanAndPath p B s (t ω)) :
    IsNormal P (fun ω => (t ω).xmean) s.xmean ((s.sigma ^ 2 / p.muw) • C) ∧
      IsNormal P (fun ω => (t ω).psigma) ((1 - p.csigma) • s.psigma) ((p.csigma * (2 - p.csigma)) • (1 : Mat n)) := by
  have hmul : p.mu ≤ p.lambda := by rw [hp.mu]; exact Nat.div_le_self _ _
  have hq := perm_getD_injective hl hmul nz
  have hstep : ∀ ω, meanStep (constsOf p) (stateOf s) (ranked (t ω).cands) =
      ∑ i : Fin p.mu, p.weights i • A.mulVec (Z (nz + l.getD i 0) ω) := by
    intro ω
    refine neutral_meanStep (z := fun j => Z (nz + j) ω) (ht ω).sigma fun i hi => ?_
    exact hr ω i (by omega)
  have hw : ∑ i : Fin p.mu, p.weights i ^ 2 = 1 / p.muw := by
    rw [Fin.sum_univ_eq_sum_range (fun i => p.weights i ^ 2) p.mu, hm, one_div_one_div]
  have hmw : p.muw ≠ 0 := by have := hp.muw; positivity
  constructor
  · have h := isNormal_weighted hZ (fun i : Fin p.mu => nz + l.getD i 0) hq (fun i => s.sigma * p.weights i) A s.xmean
    have e1 : (fun ω => s.xmean + ∑ i : Fin p.mu, (s.sigma * p.weights i) • A.mulVec (Z (nz + l.getD i 0) ω)) =
        fun ω => (t ω).xmean := by
      funext ω
      rw [(ht ω).mean, hstep ω, Finset.smul_sum]
      congr 1
      exact Finset.sum_congr rfl fun i _ => by rw [smul_smul]
    have e2 : ∑ i : Fin p.mu, (s.sigma * p.weights i) ^ 2 = s.sigma ^ 2 / p.muw := by
      simp_rw [mul_pow]
      rw [← Finset.mul_sum, hw]
      ring
    rwa [e1, e2, hA] at h
  · set c := Real.sqrt (p.csigma * (2 - p.csigma) * p.muw) with hc
    have h := isNormal_weighted hZ (fun i : Fin p.mu => nz + l.getD i 0) hq (fun i => c * p.weights i) (B * A)
      ((1 - p.csigma) • s.psigma)
    have e1 : (fun ω => (1 - p.csigma) • s.psigma +
        ∑ i : Fin p.mu, (c * p.weights i) • (B * A).mulVec (Z (nz + l.getD i 0) ω)) = fun ω => (t ω).psigma := by
      funext ω
      rw [(ht ω).path, hstep ω, ← hc]
      congr 1
      rw [mulVec_sum, Finset.smul_sum]
      exact Finset.sum_congr rfl fun i _ => by rw [mulVec_smul, smul_smul, mulVec_mulVec]
    have e2 : ∑ i : Fin p.mu, (c * p.weights i) ^ 2 = p.csigma * (2 - p.csigma) := by
      simp_rw [mul_pow]
      rw [← Finset.mul_sum, hw, hc, Real.sq_sqrt]
      · field_simp
      · have h1 := hp.rates.csigma_pos
        have h2 := hp.rates.csigma_lt
        have h3 := hp.muw
        exact mul_nonneg (mul_nonneg h1.le (by linarith)) (by linarith)
    have e3 : B * A * (B * A)ᵀ = 1 := by
      rw [transpose_mul, Matrix.mul_assoc, ← Matrix.mul_assoc A, hA, ← Matrix.mul_assoc, hB]
    rwa [e1, e2, e3] at h

open MeasureTheory ProbabilityTheory in
/-- The law of the path when it is itself standard normal and independent of the draws: one more standard draw. -/
theorem neutral_stationary {Ω : Type*} [MeasurableSpace Ω] {P : Measure Ω} {Z : ℕ → Ω → Vec n} {Ψ : Ω → Vec n}
    (hZ : StdDraws P (fun k => match k with | 0 => Ψ | k + 1 => Z k))
    {p : Params n} {s t : Ω → Sol n} {A B C : Mat n} {l : List ℕ} {nz : ℕ} {m : Vec n} {sigma : ℝ}
    (hp : GoodParams p) (hm : p.muw = 1 / ∑ i ∈ range p.mu, p.weights i ^ 2) (hA : A * Aᵀ = C)
    (hB : B * C * Bᵀ = 1) (hl : l.Perm (List.range p.lambda)) (hsm : ∀ ω, (s ω).xmean = m) (hss : ∀ ω, (s ω).sigma = sigma)
    (hsp : ∀ ω, (s ω).psigma = Ψ ω)
    (hr : ∀ ω, ∀ i < p.lambda, ranked (t ω).cands i = m + sigma • A.mulVec (Z (nz + l.getD i 0) ω))
    (ht : ∀ ω, MeanAndPath p B (s ω) (t ω)) :
    IsNormal P (fun ω => (t ω).psigma) 0 (1 : Mat n) := by
  have hmul : p.mu ≤ p.lambda := by rw [hp.mu]; exact Nat.div_le_self _ _
  have hstep : ∀ ω, meanStep (constsOf p) (stateOf (s ω)) (ranked (t ω).cands) =
      ∑ i : Fin p.mu, p.weights i • A.mulVec (Z (nz + l.getD i 0) ω) := by
    intro ω
    refine neutral_meanStep (z := fun j => Z (nz + j) ω) (ht ω).sigma fun i hi => ?_
    rw [hr ω i (by omega), hsm, hss]
  have hw : ∑ i : Fin p.mu, p.weights i ^ 2 = 1 / p.muw := by
    rw [Fin.sum_univ_eq_sum_range (fun i => p.weights i ^ 2) p.mu, hm, one_div_one_div]
  have hmw : p.muw ≠ 0 := by have := hp.muw; positivity
  set c := Real.sqrt (p.csigma * (2 - p.csigma) * p.muw) with hc
  have hc2 : c ^ 2 = p.csigma * (2 - p.csigma) * p.muw := by
    rw [hc, Real.sq_sqrt]
    have h1 := hp.rates.csigma_pos
    have h2 := hp.rates.csigma_lt
    have h3 := hp.muw
    exact mul_nonneg (mul_nonneg h1.le (by linarith)) (by linarith)
  have hq : Function.Injective (Fin.cons 0 (fun i : Fin p.mu => (nz + l.getD i 0) + 1) : Fin (p.mu + 1) → ℕ) := by
    rw [Fin.cons_injective_iff]
    refine ⟨by rintro ⟨i, hi⟩; exact absurd hi (by simp), fun a b hab => perm_getD_injective hl hmul nz ?_⟩
    exact Nat.succ_injective hab
  have h := isNormal_sum hZ (Fin.cons 0 (fun i : Fin p.mu => (nz + l.getD i 0) + 1) : Fin (p.mu + 1) → ℕ) hq
    (Fin.cons ((1 - p.csigma) • (1 : Mat n)) (fun i : Fin p.mu => (c * p.weights i) • (B * A)) : Fin (p.mu + 1) → Mat n) 0
  have e3 : B * A * (B * A)ᵀ = 1 := by
    rw [transpose_mul, Matrix.mul_assoc, ← Matrix.mul_assoc A, hA, ← Matrix.mul_assoc, hB]
  have e1 : (fun ω => (0 : Vec n) + ∑ i : Fin (p.mu + 1),
      ((Fin.cons ((1 - p.csigma) • (1 : Mat n)) (fun i : Fin p.mu => (c * p.weights i) • (B * A)) :
        Fin (p.mu + 1) → Mat n) i).mulVec ((match (Fin.cons 0 (fun i : Fin p.mu => (nz + l.getD i 0) + 1) :
          Fin (p.mu + 1) → ℕ) i with | 0 => Ψ | k + 1 => Z k) ω)) = fun ω => (t ω).psigma := by
    funext ω
    rw [zero_add, Fin.sum_univ_succ, (ht ω).path, hstep ω, ← hc, hsp]
    simp only [Fin.cons_zero, Fin.cons_succ, smul_mulVec, one_mulVec]
    congr 1
    rw [mulVec_sum, Finset.smul_sum]
    exact Finset.sum_congr rfl fun i _ => by rw [mulVec_smul, smul_smul, mulVec_mulVec]
  have e2 : ∑ i : Fin (p.mu + 1),
      ((Fin.cons ((1 - p.csigma) • (1 : Mat n)) (fun i : Fin p.mu => (c * p.weights i) • (B * A)) :
        Fin (p.mu + 1) → Mat n) i) * ((Fin.cons ((1 - p.csigma) • (1 : Mat n)) (fun i : Fin p.mu => (c * p.weights i) • (B * A)) :
        Fin (p.mu + 1) → Mat n) i)ᵀ = 1 := by
    rw [Fin.sum_univ_succ]
    simp only [Fin.cons_zero, Fin.cons_succ, transpose_smul, Matrix.smul_mul, Matrix.mul_smul, smul_smul, e3,
      transpose_one, Matrix.one_mul]
    rw [← Finset.sum_smul, ← add_smul]
    have : ∑ i : Fin p.mu, c * p.weights i * (c * p.weights i) = c ^ 2 * ∑ i : Fin p.mu, p.weights i ^ 2 := by
      rw [Finset.mul_sum]
      exact Finset.sum_congr rfl fun i _ => by ring
    rw [this, hw, hc2, mul_one_div, mul_div_assoc, div_self hmw]
    have : (1 - p.csigma) * (1 - p.csigma) + p.csigma * (2 - p.csigma) * 1 = 1 := by ring
    rw [this, one_smul]
  rw [e2] at h
  exact e1 ▸ h

/-- A strategy without anything that lets the candidates depend on the objective or on each other. -/
structure NeutralSet (s : Strat n) : Prop where
  good : GoodParams s.p
  factPs : s.p.factPs = Real.sqrt (s.p.csigma * (2 - s.p.csigma) * s.p.muw)
  muw : s.p.muw = 1 / ∑ i ∈ range s.p.mu, s.p.weights i ^ 2
  kind : s.kind ≠ .vd
  vd : s.p.vd = false
  uh : s.p.uh = false
  tpa : s.p.tpa ≠ 2
  grad : s.p.withGradient = false
  extras : NoExtras s.p
  cands : s.sol.cands.length = s.p.lambda

theorem NeutralSet.elit {s : Strat n} (h : NeutralSet s) : s.elitismOn = false := by
  unfold Strat.elitismOn
  rw [h.extras.elitist, h.extras.initialElitist, h.extras.onRestart]
  simp

theorem generation_parts {env : Env n} {s s' : Strat n} (h : s.generation env = .ok s') :
    ∃ pop s1 phen s2 s3, s.ask env = .ok (pop, s1) ∧ s1.phenoCols pop = .ok phen ∧ s1.eval env pop phen = .ok s2 ∧
      s2.tell env = .ok s3 ∧ s' = s3.incIter := by
  unfold Strat.generation at h
  obtain ⟨⟨pop, s1⟩, h1, h⟩ := Out.bind_eq_ok.1 h
  obtain ⟨phen, h2, h⟩ := Out.bind_eq_ok.1 h
  obtain ⟨s2, h3, h⟩ := Out.bind_eq_ok.1 h
  obtain ⟨s3, h4, h⟩ := Out.bind_eq_ok.1 h
  exact ⟨pop, s1, phen, s2, s3, h1, h2, h3, h4, (Except.ok.inj h).symm⟩

/-- A neutral generation, full covariance. -/
theorem neutral_full (eig : EigSolver n) (C : Mat n) (hC : PSD C) :
    ∃ A B : Mat n, A * Aᵀ = C ∧ ∀ {Ω : Type*} (Z : ℕ → Ω → Vec n) (ω : Ω) (env : Env n) (s s' : Strat n), env.eig = eig →
      s.sol.cov = C → NeutralSet s → s.p.sep = false → s.p.lazyUpdate = false → Neutral env →
      s.generation (drawn env Z ω) = .ok s' → B * C * Bᵀ = 1 ∧ MeanAndPath s.p B s.sol s'.sol ∧
      ∀ i < s.p.lambda, ranked s'.sol.cands i = s.sol.xmean +
        s.sol.sigma • A.mulVec (Z (s.nz + (orderBy (neutralValue env s) s.p.lambda).getD i 0) ω) := by
  obtain ⟨A, hA, h1⟩ := C19_full eig C hC
  obtain ⟨B, h2⟩ := turn_full eig C hC.symm
  refine ⟨A, B, hA, fun {Ω} Z ω env s s' he hc hN hsep hlz hneu hgen => ?_⟩
  obtain ⟨pop, s1, phen, s2, s3, ha, hph, hev, htl, rfl⟩ := generation_parts hgen
  obtain ⟨h3, h4⟩ := h2 (drawn env Z ω) s s1 s2 s3 pop pop phen he hc hN.good hN.factPs hN.kind hsep hN.vd (Or.inr hlz) hN.uh ha hev htl
  refine ⟨h3, ⟨h4.sigma, h4.mean, h4.path⟩, fun i hi => ?_⟩
  have h5 := neutral_ranked hneu hN.cands hN.uh hN.elit hN.grad (Or.inl hN.tpa) ha hev htl i hi
  obtain ⟨x, hx, hx'⟩ := h1 (drawn env Z ω) s s1 pop he hc hsep hN.vd hN.grad (Or.inl hN.tpa) (Or.inl hlz) ha _
    (perm_getD_lt (orderBy_perm (neutralValue env s) s.p.lambda) hi)
  show ranked s3.sol.cands i = _
  rw [h5, List.getD, hx, Option.getD_some]
  funext k
  exact hx' k (by unfold Free; rw [hN.extras.fixed]; simp)

/-- A neutral generation, diagonal covariance. -/
theorem neutral_sep {Ω : Type*} {Z : ℕ → Ω → Vec n} {ω : Ω} {env : Env n} {s s' : Strat n} (hN : NeutralSet s)
    (hsep : s.p.sep = true) (hneu : Neutral env) (hgen : s.generation (drawn env Z ω) = .ok s') :
    (∀ i, 0 < s.sol.sepcov i) ∧ MeanAndPath s.p (diagonal fun i => (Real.sqrt (s.sol.sepcov i))⁻¹) s.sol s'.sol ∧
      ∀ i < s.p.lambda, ranked s'.sol.cands i = s.sol.xmean + s.sol.sigma •
        (diagonal fun i => Real.sqrt (s.sol.sepcov i)).mulVec (Z (s.nz + (orderBy (neutralValue env s) s.p.lambda).getD i 0) ω) := by
  obtain ⟨pop, s1, phen, s2, s3, ha, hph, hev, htl, rfl⟩ := generation_parts hgen
  obtain ⟨h3, h4⟩ := turn_sep hN.good hN.factPs hN.kind hsep hN.uh ha hev htl
  refine ⟨h3, ⟨h4.sigma, h4.mean, h4.path⟩, fun i hi => ?_⟩
  have h5 := neutral_ranked hneu hN.cands hN.uh hN.elit hN.grad (Or.inl hN.tpa) ha hev htl i hi
  obtain ⟨x, hx, hx'⟩ := (C19_sep (drawn env Z ω) s s1 pop hsep hN.grad (Or.inl hN.tpa) ha).2 _
    (perm_getD_lt (orderBy_perm (neutralValue env s) s.p.lambda) hi)
  show ranked s3.sol.cands i = _
  rw [h5, List.getD, hx, Option.getD_some]
  funext k
  rw [hx' k (by unfold Free; rw [hN.extras.fixed]; simp)]
  simp only [Pi.add_apply, Pi.smul_apply, mulVec_diagonal, smul_eq_mul]
  rfl

theorem sep_inv {d : Vec n} (hd : ∀ i, 0 < d i) :
    (diagonal fun i => Real.sqrt (d i)) * (diagonal fun i => Real.sqrt (d i))ᵀ = diagonal d ∧
      (diagonal fun i => (Real.sqrt (d i))⁻¹) * diagonal d * (diagonal fun i => (Real.sqrt (d i))⁻¹)ᵀ = 1 := by
  constructor
  · rw [diagonal_transpose, diagonal_mul_diagonal]
    congr 1
    funext i
    exact Real.mul_self_sqrt (hd i).le
  · rw [diagonal_transpose, diagonal_mul_diagonal, diagonal_mul_diagonal, ← diagonal_one]
    congr 1
    funext i
    have h0 := (Real.sqrt_pos.2 (hd i)).ne'
    have h1 := Real.mul_self_sqrt (hd i).le
    field_simp
    nlinarith

/-- What a generation does to the counters. -/
theorem neutral_counts {env : Env n} {s s' : Strat n} (hN : NeutralSet s) (h : s.generation env = .ok s') :
    NeutralSet s' ∧ s'.p = s.p ∧ s'.negate = s.negate ∧ s'.nz = s.nz + s.p.lambda ∧
      s'.calls.length = s.calls.length + s.p.lambda := by
  obtain ⟨pop, s1, phen, s2, s3, ha, hph, he, ht, rfl⟩ := generation_parts h
  obtain ⟨t, pop1, h1, h2, _⟩ := ask_plain hN.grad (Or.inl hN.tpa) ha
  obtain ⟨es, ei, ue, e1⟩ := Strat.askPrepare_frame h1
  obtain ⟨e2, _⟩ := Strat.askSample_frame h2
  have hpl := (Strat.ask_frame ha).2
  have es1 : s1 = { s with es := es, nz := s.nz + s.p.lambda, sol := { s.sol with eigeniter := ei, updatedEigen := ue } } := by
    rw [e2, e1]
  obtain ⟨s4, h4, e4⟩ := Strat.eval_ok (by rw [es1]; exact hN.uh) he
  obtain ⟨c2, nu, nzuh, lr, cu, cs, e5, hl5, _⟩ := Strat.eval_frame he
  obtain ⟨sol3, sol4, _, hc3, hsort, _, mx, mn, lv, le, e'⟩ := Strat.tell_step ht
  have hcalls : s2.calls.length = s.calls.length + s.p.lambda := by
    have : s4.calls = (s1.evaluated env pop phen).calls := by
      rcases Strat.reinject_frame h4 with h | ⟨_, _, _, h⟩ <;> rw [h]
    rw [e4]
    show s4.calls.length = _
    rw [this]
    unfold Strat.evaluated
    simp only [List.length_append, loopCalls_length, Strat.order_length, hpl]
    rw [es1]
  have hp : s2.p = s.p := by rw [e5, es1]
  have h6 := (stableSort_eq_ok (hsort (by rw [hp]; exact hN.uh))).2.perm.length_eq
  have hcl : s3.incIter.sol.cands.length = s.p.lambda := by
    show s3.sol.cands.length = _
    rw [← hc3, h6, e5]
    show cs.length = _
    rw [hl5, es1]
    exact hN.cands
  have hp3 : s3.incIter.p = s.p := by
    show s3.p = s.p
    rw [e', ← hp]
  have hk3 : s3.incIter.kind = s.kind := by
    show s3.kind = s.kind
    rw [e', e5, es1]
  refine ⟨⟨?_, ?_, ?_, ?_, ?_, ?_, ?_, ?_, ?_, ?_⟩, hp3, ?_, ?_, ?_⟩
  · rw [hp3]; exact hN.good
  · rw [hp3]; exact hN.factPs
  · rw [hp3]; exact hN.muw
  · rw [hk3]; exact hN.kind
  · rw [hp3]; exact hN.vd
  · rw [hp3]; exact hN.uh
  · rw [hp3]; exact hN.tpa
  · rw [hp3]; exact hN.grad
  · rw [hp3]; exact hN.extras
  · rw [hp3]; exact hcl
  · show s3.negate = _
    rw [e', e5, es1]
  · show s3.nz = _
    rw [e', e5, es1]
  · show s3.calls.length = _
    rw [e']
    exact hcalls

theorem neutralSet_of {env : Env n} {kind : CovKind} {p : Params n} {s0 s : Strat n} {tr : List (List (Cand n))}
    (hu : Usual kind p) (hx : NoExtras p) (h0 : Strat.new env kind p = .ok s0) (h : AskRun env s0 tr s) :
    NeutralSet s ∧ s.p = { p with sigmaInit := s0.sol.sigma } := by
  obtain ⟨_, _, hkd, hp0, _, hf, hn0, _⟩ := Strat.new_ok h0
  obtain ⟨r1, _, _, r4, r5, r6, _⟩ := run_p h.run
  have hp : s.p = { p with sigmaInit := s0.sol.sigma } := by rw [r1, hp0]
  refine ⟨⟨?_, ?_, ?_, ?_, ?_, ?_, ?_, ?_, ?_, ?_⟩, hp⟩
  · rw [hp]; exact hu.configured.with_sigmaInit _
  · rw [hp]; exact hu.configured.consts.1
  · rw [hp]; exact hu.configured.selMass
  · rw [r6, hkd]; exact hu.update
  · rw [hp]; exact hu.vd
  · rw [hp]; exact hu.uh
  · rw [hp]; exact hu.tpa
  · rw [hp]; exact hu.grad
  · rw [hp]; exact ⟨hx.1, hx.2, hx.3, hx.4⟩
  · exact askRun_cands (by rw [hp0]; exact hu.uh) (by rw [hf.cands, hp0]) h

theorem neutralValue_congr {env : Env n} {s t : Strat n} (hp : t.p = s.p) (hn : t.negate = s.negate)
    (hc : t.calls.length = s.calls.length) : neutralValue env t = neutralValue env s := by
  funext r
  unfold neutralValue Strat.order
  rw [hp, hn, hc]

/-- The path of the diagonal variant as a sum of draws with fixed numbers and weights. -/
theorem sep_path {Ω : Type*} {Z : ℕ → Ω → Vec n} {env : Env n} {s : Strat n} (hN : NeutralSet s) (hsep : s.p.sep = true)
    (hneu : Neutral env) (h0 : s.sol.psigma = 0) (k : ℕ) :
    ∃ (m : ℕ) (q : Fin m → ℕ) (v : Fin m → ℝ), q.Injective ∧ (∀ i, q i < s.nz + k * s.p.lambda) ∧
      ∑ i, v i ^ 2 = 1 - (1 - s.p.csigma) ^ (2 * k) ∧
      ∀ ω t, s.generations (drawn env Z ω) k = .ok t → NeutralSet t ∧ t.p = s.p ∧ t.negate = s.negate ∧
        t.nz = s.nz + k * s.p.lambda ∧ t.calls.length = s.calls.length + k * s.p.lambda ∧
        t.sol.psigma = ∑ i, v i • Z (q i) ω := by
  induction k with
  | zero =>
    refine ⟨0, Fin.elim0, Fin.elim0, fun a => a.elim0, fun a => a.elim0, by simp, fun ω t h => ?_⟩
    have := Except.ok.inj (show Except.ok s = Except.ok t from h)
    subst this
    exact ⟨hN, rfl, rfl, by simp, by simp, by simp [h0]⟩
  | succ k ih =>
    obtain ⟨m, q, v, hq, hlt, hv, hgen⟩ := ih
    set u : Strat n := { s with calls := List.replicate (s.calls.length + k * s.p.lambda) (0, .nan) } with hu
    set l := orderBy (neutralValue env u) s.p.lambda with hl
    have hperm : l.Perm (List.range s.p.lambda) := orderBy_perm _ _
    have hmul : s.p.mu ≤ s.p.lambda := by rw [hN.good.mu]; exact Nat.div_le_self _ _
    set c := Real.sqrt (s.p.csigma * (2 - s.p.csigma) * s.p.muw) with hc
    have hc2 : c ^ 2 = s.p.csigma * (2 - s.p.csigma) * s.p.muw := by
      rw [hc, Real.sq_sqrt]
      have h1 := hN.good.rates.csigma_pos
      have h2 := hN.good.rates.csigma_lt
      have h3 := hN.good.muw
      exact mul_nonneg (mul_nonneg h1.le (by linarith)) (by linarith)
    have hmw : s.p.muw ≠ 0 := by have := hN.good.muw; positivity
    have hw : ∑ i : Fin s.p.mu, s.p.weights i ^ 2 = 1 / s.p.muw := by
      rw [Fin.sum_univ_eq_sum_range (fun i => s.p.weights i ^ 2) s.p.mu, hN.muw, one_div_one_div]
    have hlast := perm_getD_injective hperm hmul (s.nz + k * s.p.lambda)
    refine ⟨m + s.p.mu, Fin.append q fun i : Fin s.p.mu => s.nz + k * s.p.lambda + l.getD i 0,
      Fin.append (fun i => (1 - s.p.csigma) * v i) fun i : Fin s.p.mu => c * s.p.weights i, ?_, ?_, ?_, ?_⟩
    · rw [Fin.append_injective_iff]
      exact ⟨hq, hlast, fun i j => by have := hlt i; omega⟩
    · intro i
      refine Fin.addCases (fun i => ?_) (fun i => ?_) i
      · rw [Fin.append_left]
        have := hlt i
        rw [Nat.succ_mul]; omega
      · rw [Fin.append_right]
        have := perm_getD_lt hperm (show i.val < s.p.lambda by omega)
        rw [Nat.succ_mul]; omega
    · rw [Fin.sum_univ_add]
      simp only [Fin.append_left, Fin.append_right, mul_pow]
      rw [← Finset.mul_sum, ← Finset.mul_sum, hv, hw, hc2, mul_one_div, mul_div_assoc, div_self hmw]
      ring
    · intro ω t ht
      obtain ⟨t1, h1, h2⟩ := Strat.generations_succ_last k ht
      obtain ⟨a1, a2, a3, a4, a5, a6⟩ := hgen ω t1 h1
      obtain ⟨b1, b2, b3, b4, b5⟩ := neutral_counts a1 h2
      refine ⟨b1, b2.trans a2, b3.trans a3, ?_, ?_, ?_⟩
      · rw [b4, a2, a4, Nat.succ_mul]; omega
      · rw [b5, a2, a5, Nat.succ_mul]; omega
      · obtain ⟨hpos, hmp, hr⟩ := neutral_sep a1 (by rw [a2]; exact hsep) hneu h2
        have hnv : neutralValue env t1 = neutralValue env u :=
          neutralValue_congr (s := u) a2 a3 (by rw [a5, hu]; simp)
        have hstep := neutral_meanStep (p := t1.p) (s := t1.sol) (A := diagonal fun i => Real.sqrt (t1.sol.sepcov i))
          (l := l) (x := ranked t.sol.cands) (z := fun j => Z (s.nz + k * s.p.lambda + j) ω) hmp.sigma fun i hi => by
            rw [a2] at hi
            have := hr i (by rw [a2]; omega)
            rw [hnv, a4, a2] at this
            exact this
        rw [hmp.path, hstep, a6, Fin.sum_univ_add]
        simp only [Fin.append_left, Fin.append_right]
        rw [a2, ← hc, Finset.smul_sum, mulVec_sum, Finset.smul_sum]
        congr 1
        · exact Finset.sum_congr rfl fun i _ => smul_smul _ _ _
        · refine Finset.sum_congr rfl fun i _ => ?_
          rw [mulVec_smul, smul_smul, mulVec_mulVec, diagonal_mul_diagonal]
          have : (fun i => (Real.sqrt (t1.sol.sepcov i))⁻¹ * Real.sqrt (t1.sol.sepcov i)) = fun _ => (1 : ℝ) := by
            funext i
            exact inv_mul_cancel₀ (Real.sqrt_pos.2 (hpos i)).ne'
          rw [this, diagonal_one, one_mulVec]

/-- Default settings, for the full and for the diagonal covariance. -/
theorem flat_setup_min (hn : 1 ≤ n) (kind : CovKind) (hk : kind ≠ .vd) (diag : Bool) (x0 : Vec n) (sigma : ℝ) :
    ∃ q : Params n, Usual kind q ∧ NoExtras q ∧ q.sep = diag ∧ q.lazyUpdate = false ∧ q.gp = GenoPheno.plain ∧
      q.maximize = false := by
  obtain ⟨p, hp, _⟩ := C11_weights hn x0 sigma (-1) 1 1 GenoPheno.plain
  obtain ⟨hu, hgp, hfx, _⟩ := usual_default (by norm_num) hp hk
  have hst := (strictRates_default (by norm_num) hp).2
  have hflags : NoExtras p ∧ p.lazyUpdate = false ∧ p.sep = false ∧ p.maximize = false := by
    unfold Params.make at hp
    obtain ⟨l, -, hm⟩ := Out.bind_eq_ok.1 hp
    obtain ⟨mu, w, muw, cs, cc, c1, cm, ds, fs, fc, ch, lv, rl, al, e⟩ := initializeParameters_frame hm
    refine ⟨⟨?_, ?_, ?_, hfx⟩, ?_, ?_, ?_⟩ <;> rw [e] <;> simp [Params.blank]
  cases diag
  · exact ⟨p, hu, hflags.1, hflags.2.2.1, hflags.2.1, hgp, hflags.2.2.2⟩
  · exact ⟨p.setSep, ⟨⟨.sep hu.configured hflags.2.2.1 hu.vd, hst, hk, hu.vd, hu.lazy, hu.grad, hu.initialElitist, hu.elitist⟩,
      hu.uh, hu.tpa⟩, ⟨hflags.1.1, hflags.1.2, hflags.1.3, hflags.1.4⟩, rfl, hflags.2.1, hgp, hflags.2.2.2⟩

theorem flat_setup (hn : 1 ≤ n) (kind : CovKind) (hk : kind ≠ .vd) (diag : Bool) (x0 : Vec n) (sigma : ℝ) :
    ∃ q : Params n, Usual kind q ∧ NoExtras q ∧ q.sep = diag ∧ q.lazyUpdate = false ∧ q.gp = GenoPheno.plain := by
  obtain ⟨q, h1, h2, h3, h4, h5, _⟩ := flat_setup_min hn kind hk diag x0 sigma
  exact ⟨q, h1, h2, h3, h4, h5⟩

end Libcmaes
