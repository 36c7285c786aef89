import Verif.Lemmas.GradientNum
import Verif.Lemmas.Flip
import Verif.Lemmas.Total
import Verif.Lemmas.Points

/-!
# A generation with gradient injection does not fail
-/

namespace Libcmaes

open Matrix Spec

variable {n : ℕ}

/-- The same state with gradient injection off. -/
def Strat.noGrad (s : Strat n) : Strat n := { s with p := { s.p with withGradient := false } }

/-- The settings read by `GoodParams` do not include the injection. -/
theorem Spec.GoodParams.noGrad {p : Params n} {b : Bool} (h : GoodParams { p with withGradient := b }) : GoodParams p :=
  ⟨h.dim, h.lambda, h.mu, ⟨h.weights.1, h.weights.2, h.weights.3, h.weights.4⟩,
    ⟨h.rates.1, h.rates.2, h.rates.3, h.rates.4, h.rates.5, h.rates.6, h.rates.7, h.rates.8⟩,
    h.muw, h.chi, h.alphathuh, h.rlambda, h.fixed_lt, h.fixed_nodup, h.fixed_len⟩

namespace Strat

theorem new_noGrad (env : Env n) (kind : CovKind) (p : Params n) :
    Strat.new env kind { p with withGradient := false } = Except.map noGrad (Strat.new env kind p) := by
  unfold Strat.new
  rw [Out.map_bind]
  have h : Sol.make { p with withGradient := false } (env.rnd 0) (env.z 0) =
      Except.map (fun q : Params n × Sol n => ({ q.1 with withGradient := false }, q.2)) (Sol.make p (env.rnd 0) (env.z 0)) := by
    unfold Sol.make
    rw [Out.map_bind]
    refine Out.bind_congr _ fun m => ?_
    branches
  rw [h, Out.bind_map]
  rfl

theorem askPrepare_noGrad (env : Env n) (s : Strat n) :
    s.noGrad.askPrepare env = Except.map noGrad (s.askPrepare env) := by
  unfold askPrepare
  branches

theorem askSample_noGrad (env : Env n) (s : Strat n) :
    s.noGrad.askSample env = Except.map (fun q => (q.1, q.2.noGrad)) (s.askSample env) := by
  unfold askSample
  branches

theorem covarianceUpdate_noGrad (eig : EigSolver n) (k : CovKind) (p : Params n) (es : Es n) (sol : Sol n) :
    covarianceUpdate eig k { p with withGradient := false } es sol = covarianceUpdate eig k p es sol := by
  cases k <;> rfl

/-- `ask` without the injection. -/
theorem ask_noGrad_ok {env : Env n} {s s1 : Strat n} {pop : List (Vec n)} (htpa : s.p.tpa ≠ 2)
    (h : s.noGrad.ask env = .ok (pop, s1)) : ∃ t1 t2 pop0, s.askPrepare env = .ok t1 ∧ t1.askSample env = .ok (pop0, t2) ∧
      s1 = t2.noGrad ∧ pop0.mapM (setFixed s.p.fixedP) = .ok pop := by
  unfold ask at h
  rw [askPrepare_noGrad, Out.bind_map] at h
  obtain ⟨t1, h1, h⟩ := Out.bind_eq_ok.1 h
  rw [askSample_noGrad, Out.bind_map] at h
  obtain ⟨⟨pop0, t2⟩, h2, h⟩ := Out.bind_eq_ok.1 h
  have hg : t2.noGrad.askGradient env pop0 = .ok (pop0, t2.noGrad) := by
    unfold askGradient; exact if_pos rfl
  simp only at h
  rw [hg, Out.ok_bind] at h
  obtain ⟨es, ei, ue, e1⟩ := askPrepare_frame h1
  obtain ⟨e2, -⟩ := askSample_frame h2
  have ht : t2.noGrad.askTpa env pop0 = .ok (pop0, t2.noGrad) := by
    unfold askTpa
    rw [if_neg]
    rintro ⟨h, -⟩
    refine htpa ?_
    have : t2.p = s.p := by rw [e2, e1]
    rw [← this]; exact h
  simp only at h
  rw [ht, Out.ok_bind] at h
  obtain ⟨pop4, h5, h⟩ := Out.bind_eq_ok.1 h
  injection h with h
  injection h with h6 h7
  subst h6
  exact ⟨t1, t2, pop0, h1, h2, h7.symm, h5⟩

end Strat

/-- The gradient of the objective can be computed: the user gives one, or the objective has finite values. -/
def GradientComputable (env : Env n) (gp : GenoPheno) : Prop :=
  env.gfunc.isSome = true ∨ ((∀ k y, ∃ a : ℝ, env.f k y = FVal.ofReal a) ∧ ∀ i : Fin n, ∃ u, gp.uBound i = .ok u)

theorem finite_negIf (b : Bool) (a : ℝ) : ∃ c, Strat.finite (negIf b (FVal.ofReal a)) = .ok c := by
  cases b with
  | false => exact ⟨a, finite_ofReal a⟩
  | true =>
    refine ⟨-a, ?_⟩
    have : negIf true (FVal.ofReal a) = FVal.ofReal (-a) := by
      unfold negIf FVal.ofReal FVal.neg
      simp
    rw [this]; exact finite_ofReal _

theorem gradFold_total {env : Env n} {gp : GenoPheno} (hf : ∀ k y, ∃ a : ℝ, env.f k y = FVal.ofReal a)
    (hu : ∀ i : Fin n, ∃ u, gp.uBound i = .ok u) (x : Vec n) (fx : ℝ) (l : List ℕ) (hl : ∀ i ∈ l, i < n) (q : Strat n × Vec n)
    (hq : q.1.p.gp = gp) : ∃ q', l.foldlM (Strat.gradStep env x fx) q = .ok q' := by
  induction l generalizing q with
  | nil => exact ⟨q, rfl⟩
  | cons i l ih =>
    rw [List.foldlM_cons]
    have hi := hl i (by simp)
    have : ∃ q', Strat.gradStep env x fx q i = .ok q' ∧ q'.1.p.gp = gp := by
      unfold Strat.gradStep
      rw [dif_pos hi]
      obtain ⟨u, hu⟩ := hu ⟨i, hi⟩
      rw [hq, show gp.uBound i = .ok u from hu, Out.ok_bind]
      simp only [Strat.callF]
      obtain ⟨a, ha⟩ := hf q.1.calls.length (Function.update x ⟨i, hi⟩ (min (x ⟨i, hi⟩ + Strat.gradEps x ⟨i, hi⟩) u))
      obtain ⟨c, hc⟩ := finite_negIf q.1.negate a
      have e : (if q.1.negate = true then (env.f q.1.calls.length
          (Function.update x ⟨i, hi⟩ (min (x ⟨i, hi⟩ + Strat.gradEps x ⟨i, hi⟩) u))).neg else env.f q.1.calls.length
          (Function.update x ⟨i, hi⟩ (min (x ⟨i, hi⟩ + Strat.gradEps x ⟨i, hi⟩) u))) = negIf q.1.negate (FVal.ofReal a) := by
        rw [ha]; rfl
      rw [e, hc]
      exact ⟨_, rfl, hq⟩
    obtain ⟨q1, h1, h2⟩ := this
    rw [h1, Out.ok_bind]
    exact ih (fun j hj => hl j (by simp [hj])) q1 h2

theorem gradf_total {env : Env n} {s : Strat n} (h : GradientComputable env s.p.gp) (x : Vec n) :
    ∃ q, s.gradf env x = .ok q := by
  unfold Strat.gradf
  cases hg : env.gfunc with
  | some G => exact ⟨_, rfl⟩
  | none =>
    rcases h with h | ⟨hf, hu⟩
    · rw [hg] at h; cases h
    simp only [Strat.callF]
    obtain ⟨a, ha⟩ := hf s.calls.length x
    obtain ⟨c, hc⟩ := finite_negIf s.negate a
    have e : (if s.negate = true then (env.f s.calls.length x).neg else env.f s.calls.length x) =
        negIf s.negate (FVal.ofReal a) := by rw [ha]; rfl
    rw [e, hc, Out.ok_bind]
    obtain ⟨q, hq⟩ := gradFold_total hf hu x c (Strat.order env { s with calls := s.calls ++ [(x, env.f s.calls.length x)] } n)
      (fun i hi => List.mem_range.1 ((Strat.order_perm env _ n).mem_iff.1 hi))
      ({ s with calls := s.calls ++ [(x, env.f s.calls.length x)] }, fun _ => 0) rfl
    rw [hq]
    exact ⟨_, rfl⟩

/-- The transform is defined at the mean and next to it. -/
def PhenoNear (gp : GenoPheno) (m : Vec n) : Prop :=
  (∃ y : Vec n, phenoV gp m = .ok y) ∧ (∃ y : Vec n, phenoV gp (m + Strat.gradEps m) = .ok y) ∧
    ∃ y : Vec n, phenoV gp (m - Strat.gradEps m) = .ok y

theorem Spec.QuadraticNear.near {gp : GenoPheno} {m c b a : Vec n} (h : QuadraticNear gp m c b a) : PhenoNear gp m := by
  refine ⟨⟨_, h m fun i => ?_⟩, ⟨_, h _ fun i => ?_⟩, _, h _ fun i => ?_⟩
  · rw [sub_self, abs_zero]; exact (gradEps_pos m i).le
  · rw [Pi.add_apply, add_sub_cancel_left, abs_of_pos (gradEps_pos m i)]; exact le_rfl
  · rw [Pi.sub_apply, sub_sub_cancel_left, abs_neg, abs_of_pos (gradEps_pos m i)]; exact le_rfl

/-- The injection succeeds. -/
theorem askGradient_total {env : Env n} {s : Strat n} {pop : List (Vec n)} (hG : GradientComputable env s.p.gp)
    (hph : PhenoNear s.p.gp s.sol.xmean) (hpop : pop ≠ []) (hvd : s.p.vd = false)
    (hsep : s.p.sep = true → ∀ i, 0 < s.sol.sepcov i)
    (hfull : s.p.sep = false → ∃ e, s.es.eig = some e ∧ (∀ i, 0 < e.1 i) ∧ e.2 * e.2ᵀ = 1) :
    ∃ q, s.askGradient env pop = .ok q := by
  unfold Strat.askGradient
  by_cases hw : s.p.withGradient = false
  · rw [if_pos hw]; exact ⟨_, rfl⟩
  rw [if_neg hw]
  obtain ⟨⟨ph, h1⟩, ⟨a, ha⟩, ⟨b, hb⟩⟩ := hph
  obtain ⟨⟨s1, g⟩, h2⟩ := gradf_total (s := s) hG ph
  rw [h1, Out.ok_bind, h2, Out.ok_bind]
  have hp1 : s1.p = s.p := by
    obtain ⟨c, e⟩ := Strat.gradf_frame h2
    rw [e]
  obtain ⟨gg, h3⟩ : ∃ gg, s1.gradgp s.sol.xmean = .ok gg := by
    unfold Strat.gradgp
    rw [hp1]
    rw [ha, hb]
    exact ⟨_, rfl⟩
  simp only
  rw [h3, Out.ok_bind]
  by_cases h0 : g * gg = 0
  · rw [if_pos h0]; exact ⟨_, rfl⟩
  rw [if_neg h0, if_neg hpop]
  by_cases hs : s.p.sep = true
  · rw [if_neg (by simp [hs]), if_pos fun i => (hsep hs i).le]
    have : vnorm (fun i => Real.sqrt (s.sol.sepcov i) * (g * gg) i) ≠ 0 := by
      refine vnorm_ne_zero fun h => h0 ?_
      funext i
      have := congrFun h i
      rcases mul_eq_zero.1 this with h | h
      · exact absurd h (Real.sqrt_pos.2 (hsep hs i)).ne'
      · exact h
    rw [if_neg this]
    exact ⟨_, rfl⟩
  · have hs : s.p.sep = false := by simpa using hs
    rw [if_pos (by simp [hs, hvd])]
    obtain ⟨e, he, hp, ho⟩ := hfull hs
    rw [he]
    simp only
    rw [if_pos fun i => (hp i).le]
    have : sqNorm ((e.2 * diagonal (fun i => Real.sqrt (e.1 i)) * e.2ᵀ).mulVec (g * gg)) ≠ 0 := by
      rw [sqrtMul_sq (fun i => (hp i).le) ho, quad_conj, quad_diagonal]
      have hne : e.2ᵀ.mulVec (g * gg) ≠ 0 := by
        intro h
        apply h0
        have h2 := congrArg e.2.mulVec h
        rwa [mulVec_mulVec, ho, one_mulVec, mulVec_zero] at h2
      obtain ⟨j, hj⟩ := Function.ne_iff.1 hne
      refine (Finset.sum_pos' (fun i _ => mul_nonneg (hp i).le (sq_nonneg _)) ⟨j, Finset.mem_univ j, ?_⟩).ne'
      exact mul_pos (hp j) (by have : e.2ᵀ.mulVec (g * gg) j ≠ 0 := hj; positivity)
    rw [if_neg this]
    exact ⟨_, rfl⟩

/-- `ask` succeeds, and up to the injection the state is as without it. -/
theorem ask_total_gradient {env : Env n} {s : Strat n} (hL : Live s.noGrad) (hG : GradientComputable env s.p.gp)
    (hph : PhenoNear s.p.gp s.sol.xmean) :
    ∃ pop s1, s.ask env = .ok (pop, s1) ∧ Ready env s1.noGrad := by
  obtain ⟨pop', s1', h', hR⟩ := hL.toLiveCore.ready (env := env) hL.moved
  have htpa : s.p.tpa ≠ 2 := hL.tpa
  obtain ⟨t1, t2, pop0, h1, h2, rfl, h3⟩ := Strat.ask_noGrad_ok htpa h'
  obtain ⟨es, ei, ue, e1⟩ := Strat.askPrepare_frame h1
  obtain ⟨e2, hl⟩ := Strat.askSample_frame h2
  have hp2 : t2.p = s.p := by rw [e2, e1]
  have hp1 : t1.p = s.p := by rw [e1]
  have hgood : 2 ≤ s.p.lambda := hL.good.lambda
  have hsep : s.noGrad.p.sep = s.p.sep := rfl
  obtain ⟨⟨pop2, t3⟩, h4⟩ := askGradient_total (env := env) (s := t2) (pop := pop0) (by rw [hp2]; exact hG)
    (by rw [hp2, show t2.sol.xmean = s.sol.xmean by rw [e2, e1]]; exact hph)
    (by intro h; rw [h, hp1] at hl; simp at hl; omega) (by rw [hp2]; exact hL.vd)
    (fun hs => (hR.sep (show t2.noGrad.p.sep = true from hs)).2) (fun hs => by
      obtain ⟨_, _, f3, _⟩ := hR.full (show t2.noGrad.p.sep = false from hs)
      obtain ⟨e, he⟩ := Option.isSome_iff_exists.1 f3
      exact ⟨e, he, hR.eig e he⟩)
  obtain ⟨⟨c, e3⟩, -⟩ := Strat.askGradient_frame h4
  have ht : t3.askTpa env pop2 = .ok (pop2, t3) := by
    unfold Strat.askTpa
    rw [if_neg]
    rintro ⟨h, -⟩
    refine htpa ?_
    have : t3.p = s.p := by rw [e3, ← hp2]
    rw [← this]; exact h
  obtain ⟨pop4, h5⟩ : ∃ pop4, pop2.mapM (setFixed s.p.fixedP) = .ok pop4 :=
    Out.mapM_ok_of fun x _ => (setFixed_ok_iff s.p.fixedP x).2 hL.good.fixed_lt
  refine ⟨pop4, t3, ?_, ?_⟩
  · unfold Strat.ask
    rw [h1, Out.ok_bind, h2, Out.ok_bind]
    show (t2.askGradient env pop0 >>= _) = _
    rw [h4, Out.ok_bind]
    show (t3.askTpa env pop2 >>= _) = _
    rw [ht, Out.ok_bind]
    show (pop2.mapM (setFixed s.p.fixedP) >>= _) = _
    rw [h5]; rfl
  · rw [e3]
    exact hR.change (c := t2.calls ++ c) (ne := t2.nevals + c.length) (nu := t2.nu) (nz := t2.nzuh) (lr := t2.sol.lambdaReev)
      (cr := t2.crit) (cu := t2.sol.candsUh) (cs := t2.sol.cands) (sne := t2.sol.nevals + c.length)

theorem generation_total_gradient {env : Env n} {s : Strat n} (hL : Live s.noGrad) (hG : GradientComputable env s.p.gp)
    (hph : ∀ x : Vec n, ∃ y : Vec n, phenoV s.p.gp x = .ok y) (hf : ∀ k y, (env.f k y).IsNum) (hr : RefNum s) :
    ∃ s', s.generation env = .ok s' ∧ Live s'.noGrad ∧ RefNum s' ∧ s'.p = s.p := by
  have huh : s.p.uh = false := hL.uh
  obtain ⟨pop, s1, ha, hR⟩ := ask_total_gradient hL hG ⟨hph _, hph _, hph _⟩
  obtain ⟨⟨es, ei, ue, c, nz, x1, x2, p1, p2, e1⟩, hpl⟩ := Strat.ask_frame ha
  have hp1 : s1.p = s.p := by rw [e1]
  obtain ⟨phen, hphn⟩ : ∃ phen, s1.phenoCols pop = .ok phen := by
    unfold Strat.phenoCols
    rw [hp1]
    exact Out.mapM_ok_of fun x _ => hph x
  have hphl : phen.length = s.p.lambda := by rw [← hpl]; exact (Out.mapM_length hphn).symm
  have hcd : s1.sol.cands.length = s.p.lambda := by rw [e1]; exact hL.cands
  obtain ⟨s2, hev⟩ := Strat.eval_total (env := env) (s := s1) (cols := pop) (phen := phen)
    (by rw [hp1]; exact huh) (by rw [hp1]; exact hL.good.lambda) (by rw [hp1]; exact hcd)
    (by rw [hpl, hp1]) (by rw [hphl, hp1]) (by
      intro hel
      rw [e1] at hel ⊢
      exact hL.toLiveCore.elitist (s := s.noGrad) hel)
  have hnn : NoNaN s2.sol.cands := by
    refine eval_noNaN (by rw [hp1]; exact huh) ?_ hf ?_ hev
    · rw [hpl, hcd]
    · rw [e1]; exact hr
  obtain ⟨c2, nu, nzuh, lr, cu, cs, e2, hcs, _⟩ := Strat.eval_frame hev
  have hp2 : s2.p = s.p := by rw [e2, e1]
  have hR2 : Ready env s2.noGrad := by rw [e2]; exact hR.change
  have hl2 : s2.sol.cands.length = s.p.lambda := by rw [e2]; exact hcs.trans hcd
  obtain ⟨s3, htl⟩ := Strat.tell_total (env := env) (s := s2) (by rw [hp2]; exact hL.good.noGrad)
    (by rw [hp2]; exact ⟨hL.strict.1, hL.strict.2⟩) hR2.kind hR2.vd (by rw [hp2]; exact huh) hR2.paths hR2.sigma
    (by rw [hp2]; exact hl2) hR2.kcand hR2.sep (fun hs => ⟨(hR2.full hs).1, (hR2.full hs).2.2.1, (hR2.full hs).2.2.2.1⟩)
    (strictWeakOn_of_noNaN hnn)
  refine ⟨s3.incIter, ?_, ?_⟩
  · unfold Strat.generation
    rw [ha, Out.ok_bind]
    simp only
    rw [hphn, Out.ok_bind, hev, Out.ok_bind, htl]
    rfl
  have hperm : ∃ cs', stableSort candLt s2.sol.cands = .ok cs' := by
    unfold stableSort; rw [if_pos (strictWeakOn_of_noNaN hnn)]; exact ⟨_, rfl⟩
  obtain ⟨cs', hcs'⟩ := hperm
  have hpm := (stableSort_eq_ok hcs').2.perm
  obtain ⟨t1, ts, sol3, sol4, k1, k2, k3, k4, k5⟩ := Strat.tell_ok htl
  have ht1 : t1 = { s2 with sol := { s2.sol with cands := cs' } } := by
    unfold Strat.rank at k1
    rw [if_neg (by rw [hp2]; simp [huh])] at k1
    unfold Sol.sortCandidates at k1
    rw [hcs'] at k1
    exact (Except.ok.inj k1).symm
  subst ht1
  obtain ⟨c0, ck, cl, med, _, _, _, _, f3, _⟩ := Sol.updateBest_ok k3
  obtain ⟨_, mx, mn, lv, le, f5⟩ := Strat.tellFinish_ok k5
  have hrun : AskRun env s [s2.sol.cands] s3.incIter := .turn ha hev htl (.refl _)
  obtain ⟨r1, r2, r3, r4, r5, r6, r7, r8, r9, r10⟩ := run_p hrun.run
  have hseen := (updateBest_seen k3)
  refine ⟨⟨?_, ?_, ?_⟩, ⟨fun c hc => ?_, fun c hc => ?_⟩, r1⟩
  · rw [f5]
    refine hR2.live (sol3 := sol3) (sol4 := sol4) ?_ ?_ ?_ ?_ ?_
    · rw [f3]; exact ⟨_, _, _, _, _, _, _, _, _, _, _, rfl⟩
    · exact (Strat.covarianceUpdate_noGrad env.eig s2.kind s2.p s2.es sol3).trans k4
    · rw [f3]
      show cs'.length = s2.p.lambda
      rw [hpm.length_eq, hl2, hp2]
    · refine hseen.1 ?_
      show s2.sol.niter = 0 ∨ s2.sol.bestSeen.isSome = true
      by_cases h0 : s2.niter = 0
      · exact Or.inl (hR2.niter.trans h0)
      · exact Or.inr (hR2.seen h0)
    · intro h4
      show 0 < if s2.p.uh = true ∧ sol4.suh > 0 then sol4.sigma * s2.p.alphathuh else sol4.sigma
      rw [hp2, if_neg (by rw [huh]; simp)]
      exact h4
  · show s3.p.uh = false
    have : s3.p = s.p := r1
    rw [this]; exact huh
  · show s3.p.tpa ≠ 2
    have : s3.p = s.p := r1
    rw [this]; exact hL.tpa
  · obtain ⟨csq, hc', sc, ps, hs', pc, cov, sep, v, sg', xp, xm, e4⟩ := covarianceUpdate_frame k4
    have : s3.incIter.sol.bestSeen = sol3.bestSeen := by rw [f5, e4]; rfl
    rw [this] at hc
    rcases hseen.2 c hc with h | h
    · exact hnn c (hpm.mem_iff.1 h)
    · refine hr.1 c ?_
      have h : s2.sol.bestSeen = some c := h
      rw [e2, e1] at h; exact h
  · refine hr.2 c ?_
    rw [← r10]; exact hc

/-- Any number of generations. -/
theorem generations_total_gradient {env : Env n} {s : Strat n} (hL : Live s.noGrad) (hG : GradientComputable env s.p.gp)
    (hph : ∀ x : Vec n, ∃ y : Vec n, phenoV s.p.gp x = .ok y) (hf : ∀ k y, (env.f k y).IsNum) (hr : RefNum s) (k : ℕ) :
    ∃ s', s.generations env k = .ok s' ∧ Live s'.noGrad ∧ RefNum s' ∧ s'.p = s.p := by
  induction k generalizing s with
  | zero => exact ⟨s, rfl, hL, hr, rfl⟩
  | succ k ih =>
    unfold Strat.generations
    obtain ⟨s1, h1, h2, h3, h4⟩ := generation_total_gradient hL hG hph hf hr
    rw [h1, Out.ok_bind]
    obtain ⟨s', i1, i2, i3, i4⟩ := ih (s := s1) h2 (by rw [h4]; exact hG) (by rw [h4]; exact hph) h3
    exact ⟨s', i1, i2, i3, i4.trans h4⟩

/-- A fresh strategy with gradient injection. -/
theorem live_new_gradient {env : Env n} {kind : CovKind} {p : Params n} {s : Strat n}
    (hu : Usual kind { p with withGradient := false }) (h : Strat.new env kind p = .ok s) : Live s.noGrad ∧ RefNum s := by
  have h1 : Strat.new env kind { p with withGradient := false } = .ok s.noGrad := by
    rw [Strat.new_noGrad, h]; rfl
  obtain ⟨h2, h3⟩ := live_new hu h1
  exact ⟨h2, h3⟩

/-- The first column of a population is among the candidates, with the value of the objective there. -/
theorem generation_first {env : Env n} {s s' : Strat n} {x y : Vec n} (huh : s.p.uh = false)
    (hpop : ∀ pop s1, s.ask env = .ok (pop, s1) → pop[0]? = some x) (hx : phenoV s.p.gp x = .ok y)
    (h : s.generation env = .ok s') :
    ∃ c ∈ s'.sol.cands, c.x = x ∧ (∃ k, c.fvalue = negIf s.negate (env.f k y)) ∧
      ∀ b, s'.sol.cands.head? = some b → ¬ FVal.lt c.fvalue b.fvalue := by
  unfold Strat.generation at h
  obtain ⟨⟨pop, s1⟩, ha, h⟩ := Out.bind_eq_ok.1 h
  obtain ⟨phen, hph, h⟩ := Out.bind_eq_ok.1 h
  obtain ⟨s2, he, h⟩ := Out.bind_eq_ok.1 h
  obtain ⟨s3, ht, h⟩ := Out.bind_eq_ok.1 h
  injection h with h
  subst h
  have h0 := hpop _ _ ha
  obtain ⟨⟨es, ei, ue, cc, nz, x1, x2, p1, p2, e1⟩, hpl⟩ := Strat.ask_frame ha
  have hl0 : 0 < pop.length := by
    rcases pop with _ | ⟨a, l⟩
    · cases h0
    · simp
  obtain ⟨b1, b2⟩ := Strat.eval_bounds he
  obtain ⟨s4, h4, h5⟩ := Strat.eval_ok (by rw [e1]; exact huh) he
  have hc := Strat.evaluated_cands (env := env) (phen := phen) b1 0
  rw [if_pos hl0] at hc
  have hphen0 : phen[0]? = some y := by
    unfold Strat.phenoCols at hph
    rw [Out.mapM_eq_ok] at hph
    cases hph with
    | nil => cases h0
    | cons h1 h2 =>
      simp only [List.getElem?_cons_zero, Option.some.injEq] at h0 ⊢
      rw [h0, e1] at h1
      have := h1.symm.trans hx
      injection this
  have hY : colY pop phen 0 = y := by
    unfold colY colX
    rw [if_neg (by intro h; rw [List.isEmpty_iff] at h; rw [h] at hphen0; cases hphen0)]
    simp [List.getD, hphen0]
  have hX : colX pop 0 = x := by unfold colX; simp [List.getD, h0]
  rw [hY, hX] at hc
  have hs2 : s2.sol.cands[0]? = some ⟨negIf s1.negate (env.f (s1.calls.length + (s1.order env pop.length).idxOf 0) y), x, 0⟩ := by
    rw [h5]
    show s4.sol.cands[0]? = _
    rcases Strat.reinject_frame h4 with h | ⟨r, _, _, h⟩
    · rw [h]; exact hc
    · rw [h]
      show (List.set _ 1 r)[0]? = _
      rw [List.getElem?_set_ne (by omega)]
      exact hc
  have hmem := List.mem_of_getElem? hs2
  obtain ⟨cs', cu', su, ts, sol3, hs, hb, csq, hc', sc, ps, hs', pc, cov, sep, v, sg, xp, xm, mx, mn, lv, le, e'⟩ := Strat.tell_frame ht
  obtain ⟨c2, nu, nzuh, lr, cu, cs, e2, _, _⟩ := Strat.eval_frame he
  have hst := stableSort_eq_ok (hs (by rw [e2, e1]; exact huh))
  obtain ⟨c0, ck, cl, med, _, _, _, _, e3, _⟩ := Sol.updateBest_ok hb
  have hcs : s3.incIter.sol.cands = cs' := by
    show s3.sol.cands = cs'
    rw [e', e3]
  have hR := ranked_of_sorts hst.2
  have hm' := hR.perm.mem_iff.2 hmem
  refine ⟨_, by rw [hcs]; exact hm', rfl, ⟨_, by rw [show s1.negate = s.negate by rw [e1]]⟩, fun b hb => ?_⟩
  rw [hcs] at hb
  rcases cs' with _ | ⟨d, l⟩
  · cases hb
  · injection hb with hb
    subst hb
    rcases List.mem_cons.1 hm' with h | h
    · rw [← h]
      intro h'
      exact absurd h' (FVal.lt_irrefl _)
    · exact (List.pairwise_cons.1 hR.sorted).1 _ h

end Libcmaes
