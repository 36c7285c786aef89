import Verif.Lemmas.Flip
import Verif.Spec.Invariance
import Verif.Props.Loss
import Verif.Props.Eval

/-!
# C35: maximising `f` is minimising `-f`
-/

namespace Libcmaes

open Spec Matrix

variable {n : ℕ}

theorem flip_env {env : Env n} (h : BlindToFlag env) :
    env.flip = { env with f := fun k x => (env.f k x).neg } := by
  have : (fun k (q : Params n) s => env.pfunc k q.flip s) = env.pfunc := by
    funext k q s
    have hb := h k q s
    obtain ⟨_⟩ : True := trivial
    cases hq : q.maximize
    · have e1 : q.flip = { q with maximize := true } := by unfold Params.flip; rw [hq]; rfl
      have e2 : q = { q with maximize := false } := by rw [← hq]
      rw [e1, hb]; exact congrArg (fun q => env.pfunc k q s) e2.symm
    · have e1 : q.flip = { q with maximize := false } := by unfold Params.flip; rw [hq]; rfl
      have e2 : q = { q with maximize := true } := by rw [← hq]
      rw [e1, ← hb]; exact congrArg (fun q => env.pfunc k q s) e2.symm
  unfold Env.flip
  rw [this]

theorem flip_max {p : Params n} (h : p.maximize = true) : p.flip = { p with maximize := false } := by
  unfold Params.flip; rw [h]; rfl

theorem mirror_flip (s : Strat n) : Mirror s s.flip := ⟨rfl, rfl, rfl, rfl⟩

theorem sameOutcome_map {α β : Type} {R : α → β → Prop} {f : α → β} {x : Out α} (h : ∀ a, R a (f a)) :
    SameOutcome R x (Except.map f x) := by
  cases x with
  | error e => exact rfl
  | ok a => exact h a

/-- **C35**, hand-written loops: maximising `f` goes, generation by generation, through the same states as
minimising `-f`; the objective values reported are those of `-f`.  All settings. -/
theorem C35_generations (env : Env n) (kind : CovKind) (p : Params n) (k : ℕ) (hp : p.maximize = true)
    (hb : BlindToFlag env) :
    SameOutcome Mirror (Strat.new env kind p >>= fun s => s.generations env k)
      (Strat.new { env with f := fun k x => (env.f k x).neg } kind { p with maximize := false } >>= fun s =>
        s.generations { env with f := fun k x => (env.f k x).neg } k) := by
  rw [← flip_env hb, ← flip_max hp, Strat.new_flip, Out.bind_map]
  rw [show (Strat.new env kind p >>= fun s => s.flip.generations env.flip k) =
    Except.map Strat.flip (Strat.new env kind p >>= fun s => s.generations env k) by
      rw [Out.map_bind]; exact Out.bind_congr _ fun s => Strat.generations_flip env s k]
  exact sameOutcome_map mirror_flip

/-- **C35**, `optimize()`, including the elitist restarts. -/
theorem C35_optimize (env : Env n) (kind : CovKind) (p : Params n) (k : ℕ) (hp : p.maximize = true)
    (hb : BlindToFlag env) :
    SameOutcome (Option.Rel Mirror) (Strat.new env kind p >>= fun s => s.optimize env k)
      (Strat.new { env with f := fun k x => (env.f k x).neg } kind { p with maximize := false } >>= fun s =>
        s.optimize { env with f := fun k x => (env.f k x).neg } k) := by
  rw [← flip_env hb, ← flip_max hp, Strat.new_flip, Out.bind_map]
  rw [show (Strat.new env kind p >>= fun s => s.flip.optimize env.flip k) =
    Except.map (Option.map Strat.flip) (Strat.new env kind p >>= fun s => s.optimize env k) by
      rw [Out.map_bind]; exact Out.bind_congr _ fun s => Strat.optimize_flip env k s]
  refine sameOutcome_map fun o => ?_
  cases o with
  | none => exact .none
  | some s => exact .some (mirror_flip s)

/-- **C35**, IPOP: the same solution is returned. -/
theorem C35_ipop (env : Env n) (kind : CovKind) (p : Params n) (k : ℕ) (hp : p.maximize = true)
    (hb : BlindToFlag env) :
    SameOutcome (Option.Rel fun q q' => Mirror q.1 q'.1 ∧ q'.2 = q.2)
      (Strat.new env kind p >>= fun s => s.ipopOptimize env k)
      (Strat.new { env with f := fun k x => (env.f k x).neg } kind { p with maximize := false } >>= fun s =>
        s.ipopOptimize { env with f := fun k x => (env.f k x).neg } k) := by
  rw [← flip_env hb, ← flip_max hp, Strat.new_flip, Out.bind_map]
  rw [show (Strat.new env kind p >>= fun s => s.flip.ipopOptimize env.flip k) =
    Except.map (Option.map fun q => (q.1.flip, q.2)) (Strat.new env kind p >>= fun s => s.ipopOptimize env k) by
      rw [Out.map_bind]; exact Out.bind_congr _ fun s => Strat.ipopOptimize_flip env k s]
  refine sameOutcome_map fun o => ?_
  cases o with
  | none => exact .none
  | some q => exact .some ⟨mirror_flip q.1, rfl⟩

/-- **C35**, BIPOP: the same solution is returned. -/
theorem C35_bipop (env : Env n) (kind : CovKind) (p : Params n) (k : ℕ) (hp : p.maximize = true)
    (hb : BlindToFlag env) :
    SameOutcome (Option.Rel fun l l' => Mirror l.b.s l'.b.s ∧ l'.best = l.best)
      (Bipop.new env kind p >>= fun b => b.optimize env k)
      (Bipop.new { env with f := fun k x => (env.f k x).neg } kind { p with maximize := false } >>= fun b =>
        b.optimize { env with f := fun k x => (env.f k x).neg } k) := by
  rw [← flip_env hb, ← flip_max hp, Bipop.new_flip, Out.bind_map]
  rw [show (Bipop.new env kind p >>= fun s => s.flip.optimize env.flip k) =
    Except.map (Option.map Bipop.Loop.flip) (Bipop.new env kind p >>= fun s => s.optimize env k) by
      rw [Out.map_bind]; exact Out.bind_congr _ fun s => Bipop.optimize_flip env k s]
  refine sameOutcome_map fun o => ?_
  cases o with
  | none => exact .none
  | some q => exact .some ⟨mirror_flip q.b.s, rfl⟩

theorem usual_max {kind : CovKind} {p : Params n} (hu : Usual kind p) (b : Bool) :
    Usual kind { p with maximize := b } :=
  ⟨⟨hu.configured.other ⟨rfl, rfl, rfl, rfl, rfl, rfl, rfl, rfl, rfl, rfl, rfl, rfl, rfl, rfl, rfl, rfl, rfl⟩,
    ⟨hu.strict.1, hu.strict.2⟩, hu.update, hu.vd, hu.lazy, hu.grad, hu.initialElitist, hu.elitist⟩, hu.uh, hu.tpa⟩

/-- Witness: a maximising run of any length exists, of `x ↦ -|x|²`, with default settings. -/
theorem C35_witness (hn : 1 ≤ n) (z : ℕ → Vec n) (k : ℕ) :
    ∃ (env : Env n) (p : Params n) (s s1 : Strat n), env.f = (fun _ x => FVal.ofReal (-sqNorm x)) ∧ env.z = z ∧
      p.maximize = true ∧ BlindToFlag env ∧ Strat.new env .plain p = .ok s ∧ s.generations env k = .ok s1 := by
  set env : Env n := Env.basic (fun _ x => FVal.ofReal (-sqNorm x)) z with henv
  obtain ⟨p, hp, _⟩ := C11_weights hn (fun _ => 0) 1 (-1) 0 0 GenoPheno.plain
  obtain ⟨hu, hgp, -⟩ := usual_default (by norm_num) hp (kind := .plain) (by decide)
  have hu' := usual_max hu true
  obtain ⟨s, hs⟩ := new_plain (env := env) (kind := .plain) (p := { p with maximize := true }) hgp
    hu'.configured.good.1
  rcases C67_total env .plain _ s hu' (fun _ _ => trivial) hs k with ⟨s', h⟩ | ⟨x, e, h1, _⟩
  · exact ⟨env, _, s, s', rfl, rfl, rfl, fun _ _ _ => rfl, hs, h⟩
  · rw [show ({ p with maximize := true } : Params n).gp = GenoPheno.plain from hgp, phenoV_plain] at h1; cases h1

/-- A strategy resumed from the solution of a run with full covariance is alive. -/
theorem live_resume {s : Strat n} {kind : CovKind} {q : Params n} (hL : Live s) (hr : RefNum s) (hi : s.niter ≠ 0)
    (hsep : s.p.sep = false) (hu : Usual kind q) (hq : q.sep = false) (hl : q.lambda = s.p.lambda) :
    Live (Strat.newFromSolution kind q s.sol) ∧ RefNum (Strat.newFromSolution kind q s.sol) := by
  obtain ⟨g1, g2, g3⟩ := hL.full hsep
  obtain ⟨g4, g5⟩ := g3 hi
  have hu' : Configured { q with x0min := s.sol.bestCandidate.x, x0max := s.sol.bestCandidate.x } :=
    hu.configured.other ⟨rfl, rfl, rfl, rfl, rfl, rfl, rfl, rfl, rfl, rfl, rfl, rfl, rfl, rfl, rfl, rfl, rfl⟩
  refine ⟨⟨⟨hu'.good.1, ⟨hu.strict.1, hu.strict.2⟩, hu.update, hu.vd, hu.lazy, hu.grad, ?_, ?_, g4, hL.sigma, ?_, ?_,
    rfl, ?_, ?_, fun h => absurd rfl h, ?_⟩, hu.uh, hu.tpa⟩, hr.1, hr.2⟩
  · exact hl ▸ hL.tpaPos
  · intro e he; cases he
  · show s.sol.cands.length = q.lambda
    rw [hl]; exact hL.cands
  · show s.sol.kcand < q.lambda
    rw [hl]; exact hL.kcand
  · intro _
    exact ⟨g4, PD_one, fun h => absurd rfl h⟩
  · intro h
    exact absurd (hq.symm.trans h) (by decide)
  · intro a b
    exfalso
    have a' : (q.initialElitistOnRestart || q.initialElitist) = true := a
    have b' : (q.elitist || q.initialElitist || (false && q.initialElitistOnRestart)) = true := b
    simp only [hu.initialElitist, Bool.or_false, Bool.false_and] at a' b'
    exact hu.elitist ⟨b', a'⟩

/-- **C35 fails when starting from an existing solution** (`start_from_solution`): although the parameters ask
for maximisation, the best candidate of the first generation is the one with the smallest value of `f`. -/
theorem C35_start_false (env : Env n) (kind : CovKind) (p : Params n) (sol : Sol n) (s2 : Strat n)
    (_ : p.maximize = true) (huh : p.uh = false) (hgr : p.withGradient = false) (hm : 0 < sol.maxHist)
    (hc : sol.cands.length = p.lambda) (hp : Configured p)
    (h : (Strat.newFromSolution kind p sol).generation env = .ok s2) :
    (∃ q ∈ s2.calls, q.2 = s2.sol.bestCandidate.fvalue) ∧
      ∀ q ∈ s2.calls, ¬ FVal.lt q.2 s2.sol.bestCandidate.fvalue := by
  set s := Strat.newFromSolution kind p sol with hs
  unfold Strat.generation at h
  obtain ⟨⟨pop, s1⟩, ha, h⟩ := Out.bind_eq_ok.1 h
  obtain ⟨phen, hph, h⟩ := Out.bind_eq_ok.1 h
  obtain ⟨t2, he, h⟩ := Out.bind_eq_ok.1 h
  obtain ⟨t3, ht, h⟩ := Out.bind_eq_ok.1 h
  injection h with h
  obtain ⟨⟨es, ei, ue, c, nz, x1, x2, p1, p2, e1⟩, hpl⟩ := Strat.ask_frame ha
  have hc1 : s1.calls = [] := (Strat.ask_calls ha hgr).trans rfl
  have hsc : s1.sol.cands = sol.cands := by rw [e1]; rfl
  have huh1 : s1.p.uh = false := by rw [e1]; exact huh
  have hel : s1.elitismOn = false := by rw [e1]; simp [Strat.elitismOn, hs, Strat.newFromSolution]
  have hneg : s1.negate = false := by rw [e1]; rfl
  have hpl' : pop.length = p.lambda := hpl
  have hlen : phen.length = pop.length := (Out.mapM_length hph).symm
  obtain ⟨o, ho, cl, hcl, hfst, hval, hcand⟩ := C37_eval env s1 t2 pop phen huh1 hlen he
  have hcl2 : s2.calls = cl := by
    obtain ⟨_, _, _, _, _, _, _, _, _, _, _, _, _, _, _, _, _, _, _, _, _, _, _, e⟩ := Strat.tell_frame ht
    rw [← h]
    show t3.calls = cl
    rw [e]
    show t2.calls = cl
    rw [hcl, hc1, List.nil_append]
  have hmin : FirstMin t2.sol.cands s2.sol.bestCandidate := by
    obtain ⟨_, _, _, _, _, _, e2, _⟩ := Strat.eval_frame he
    obtain ⟨_, c2, _⟩ := C20_tell_ranks env t2 t3 (by rw [e2]; exact huh1)
      (by rw [e2]; show 0 < s1.sol.maxHist; rw [e1]; exact hm) ht
    rw [← h]; exact c2
  have hmin' : s2.sol.bestCandidate ∈ t2.sol.cands ∧
      ∀ d ∈ t2.sol.cands, ¬ FVal.lt d.fvalue s2.sol.bestCandidate.fvalue := by
    obtain ⟨pre, post, e, i1, i2⟩ := hmin
    rw [e]
    refine ⟨by simp, fun d hd => ?_⟩
    rcases List.mem_append.1 hd with hd | hd
    · exact FVal.lt_asymm (i1 d hd)
    · rcases List.mem_cons.1 hd with hd | hd
      · rw [hd]; exact FVal.lt_irrefl _
      · exact i2 d hd
  have hl2 : t2.sol.cands.length = pop.length := by
    obtain ⟨g1, -⟩ := eval_points (s := s1) (by
      rw [e1]
      exact (hp.other (q := s.p) ⟨rfl, rfl, rfl, rfl, rfl, rfl, rfl, rfl, rfl, rfl, rfl, rfl, rfl, rfl, rfl, rfl, rfl⟩).good.1)
      (by rw [e1]; exact hc) (by rw [e1]; exact hpl)
      (by rw [hlen, e1]; exact hpl) he
    rw [g1, e1]; exact hpl.symm
  -- the candidate of each call
  have hcall : ∀ r < pop.length, ∃ (j : ℕ) (q : Vec n × FVal) (d : Cand n), o[j]? = some r ∧ cl[j]? = some q ∧
      t2.sol.cands[r]? = some d ∧ d.fvalue = q.2 := by
    intro r hr
    obtain ⟨j, y, v, h1, _, h3, h4⟩ := hcand r _ (List.getElem?_eq_getElem hr) (Or.inr hel)
    exact ⟨j, (y, v), _, h1, h3, h4, by simp [hneg]⟩
  rw [hcl2]
  constructor
  · obtain ⟨r, hr, e⟩ := List.mem_iff_getElem.1 hmin'.1
    obtain ⟨j, q, d, h1, h2, h3, h4⟩ := hcall r (hl2 ▸ hr)
    refine ⟨q, List.mem_of_getElem? h2, ?_⟩
    rw [List.getElem?_eq_getElem hr, e] at h3
    injection h3 with h3
    rw [← h4, h3]
  · intro q hq
    obtain ⟨j, hj⟩ := List.mem_iff_getElem?.1 hq
    have hjl : j < o.length := by
      have := (List.getElem?_eq_some_iff.1 hj).1
      have e := congrArg List.length hfst
      simp only [List.length_map] at e
      omega
    have hr : o[j] < pop.length := by
      have := ho.mem_iff.1 (List.getElem_mem hjl)
      simpa using this
    obtain ⟨j', q', d, h1, h2, h3, h4⟩ := hcall o[j] hr
    obtain ⟨hj', h1⟩ := List.getElem?_eq_some_iff.1 h1
    have hnd : o.Nodup := ho.nodup_iff.2 List.nodup_range
    have : j' = j := (List.Nodup.getElem_inj_iff hnd).1 h1
    subst this
    rw [hj] at h2
    injection h2 with h2
    rw [h2, ← h4]
    exact hmin'.2 d (List.mem_of_getElem? h3)

/-- The hypotheses are met by a solution produced by a run, and the calls of the resumed generation have
different values: dimension 1, maximising `x ↦ x`. -/
theorem C35_start_witness :
    ∃ (env : Env 1) (p : Params 1) (s s1 s2 : Strat 1), env.f = (fun _ x => FVal.ofReal (x 0)) ∧
      p.maximize = true ∧ Strat.new env .plain p = .ok s ∧ s.generations env 1 = .ok s1 ∧ Configured p ∧
      p.uh = false ∧ p.withGradient = false ∧ 0 < s1.sol.maxHist ∧ s1.sol.cands.length = p.lambda ∧
      (Strat.newFromSolution .plain p s1.sol).generation env = .ok s2 ∧
      ∃ q ∈ s2.calls, ∃ q' ∈ s2.calls, FVal.lt q.2 q'.2 := by
  set env : Env 1 := Env.basic (fun _ x => FVal.ofReal (x 0)) (fun j _ => if j = 0 then 1 else 0) with henv
  obtain ⟨p, hp, _⟩ := C11_weights (n := 1) le_rfl (fun _ => 0) 1 (-1) 0 0 GenoPheno.plain
  obtain ⟨hu, hgp, hfx, -⟩ := usual_default (by norm_num) hp (kind := .plain) (by decide)
  obtain ⟨hlz, hsep⟩ : p.lazyUpdate = false ∧ p.sep = false := by
    unfold Params.make at hp
    obtain ⟨l, -, hp⟩ := Out.bind_eq_ok.1 hp
    obtain ⟨mu, w, muw, cs, cc, c1, cm, ds, fs, fc, ch, lv, rl, al, e⟩ := initializeParameters_frame hp
    rw [e]
    exact ⟨rfl, rfl⟩
  have hu' := usual_max hu true
  set q : Params 1 := { p with maximize := true } with hq
  have hqgp : q.gp = GenoPheno.plain := hgp
  obtain ⟨s, hs⟩ := new_plain (env := env) (kind := .plain) (p := q) hgp hu'.configured.good.1
  obtain ⟨hL, hr⟩ := live_new hu' hs
  have hsp := (Strat.new_ok hs).2.2.2.1
  rcases generation_total_num (env := env) hL (fun _ _ => trivial) hr with ⟨s1, h1, hL1, hr1⟩ | ⟨x, e, h1, _⟩
  swap
  · rw [hsp] at h1
    rw [show ({ q with sigmaInit := _ } : Params 1).gp = GenoPheno.plain from hgp, phenoV_plain] at h1; cases h1
  have hg1 : s.generations env 1 = .ok s1 := by rw [Strat.generations, h1]; rfl
  obtain ⟨tr, htr, hrun⟩ := Strat.generations_run _ hg1
  obtain ⟨r1, r2, r3, r4, -⟩ := run_p hrun
  have hmx : 0 < s1.sol.maxHist := by
    rw [r3, (Strat.new_ok hs).2.2.2.2.2.2.2.2.2.2.2.2.2.2.1]; exact maxHistOf_pos _ _ _
  have hl1 : q.lambda = s1.p.lambda := by rw [r1, hsp]
  obtain ⟨hL2, hr2⟩ := live_resume (kind := .plain) (q := q) hL1 hr1 (by rw [r4, htr]; omega)
    (by rw [r1, hsp]; exact hsep) hu' hsep hl1
  rcases generation_total_num (env := env) hL2 (fun _ _ => trivial) hr2 with ⟨s2, h2, -⟩ | ⟨x, e, h1, _⟩
  swap
  · rw [show (Strat.newFromSolution .plain q s1.sol).p.gp = GenoPheno.plain from hgp, phenoV_plain] at h1; cases h1
  refine ⟨env, q, s, s1, s2, rfl, rfl, hs, hg1, hu'.configured, hu.uh, hu.grad, hmx,
    hl1 ▸ hL1.cands, h2, ?_⟩
  set t := Strat.newFromSolution .plain q s1.sol with ht
  unfold Strat.generation at h2
  obtain ⟨⟨pop, t1⟩, ha, h3⟩ := Out.bind_eq_ok.1 h2
  obtain ⟨phen, hph, h4⟩ := Out.bind_eq_ok.1 h3
  obtain ⟨t2, he, h5⟩ := Out.bind_eq_ok.1 h4
  obtain ⟨t3, htl, h6⟩ := Out.bind_eq_ok.1 h5
  have h7 : t3.incIter = s2 := by injection h6
  obtain ⟨⟨es, ei, ue, c, nz, x1, x2, p1, p2, e1⟩, hpl⟩ := Strat.ask_frame ha
  have hphen : phen = pop := by
    rw [phenoCols_plain (by rw [e1]; exact hqgp)] at hph
    injection hph with hph; exact hph.symm
  subst hphen
  have hlam : 2 ≤ q.lambda := hu'.configured.good.1.lambda
  obtain ⟨A, hA, hAs⟩ := C19_full env.eig (1 : Mat 1) PD_one.psd
  have hcand := hAs env t t1 phen rfl rfl hsep hu.vd hu.grad (Or.inl hu.tpa) (Or.inl hlz) ha
  have hfree : Free t.p 0 := by
    intro v hv
    have : t.p.fixedP = [] := hfx
    rw [this] at hv; cases hv
  obtain ⟨y0, hy0, e0⟩ := hcand 0 (show 0 < q.lambda by omega)
  obtain ⟨y1, hy1, e1'⟩ := hcand 1 (show 1 < q.lambda by omega)
  have hne : y0 0 ≠ y1 0 := by
    rw [e0 0 hfree, e1' 0 hfree]
    have ha : A 0 0 ≠ 0 := by
      intro h0
      have := congrFun (congrFun hA 0) 0
      simp [mul_apply, h0] at this
    have hz0 : A.mulVec (env.z (t.nz + 0)) 0 = A 0 0 := by
      simp [mulVec, dotProduct, henv, Env.basic, ht, Strat.newFromSolution]
    have hz1 : A.mulVec (env.z (t.nz + 1)) 0 = 0 := by
      simp [mulVec, dotProduct, henv, Env.basic, ht, Strat.newFromSolution]
    rw [hz0, hz1]
    have hsg : t.sol.sigma ≠ 0 := hL2.sigma.ne'
    intro h
    have := mul_ne_zero hsg ha
    apply this; linarith
  obtain ⟨o, ho, cl, hcl, hfst, hval, hcd⟩ := C37_eval env t1 t2 phen phen (by rw [e1]; exact hu.uh) rfl he
  have hel : t1.elitismOn = false := by rw [e1]; simp [Strat.elitismOn, ht, Strat.newFromSolution]
  have hcl2 : s2.calls = t1.calls ++ cl := by
    obtain ⟨_, _, _, _, _, _, _, _, _, _, _, _, _, _, _, _, _, _, _, _, _, _, _, e⟩ := Strat.tell_frame htl
    rw [← h7]
    show t3.calls = _
    rw [e]
    exact hcl
  have hin : ∀ (r : ℕ) (y : Vec 1), phen[r]? = some y → (y, FVal.ofReal (y 0)) ∈ s2.calls := by
    intro r y hy
    obtain ⟨j, y', v, _, h4, h5, _⟩ := hcd r y hy (Or.inr hel)
    rw [hy] at h4
    injection h4 with h4
    have h6 : v = FVal.ofReal (y' 0) := hval j _ h5
    rw [hcl2, h4, ← h6]
    exact List.mem_append_right _ (List.mem_of_getElem? h5)
  rcases lt_or_gt_of_ne hne with h | h
  · exact ⟨_, hin 0 y0 hy0, _, hin 1 y1 hy1, by simpa [FVal.ofReal, FVal.lt] using h⟩
  · exact ⟨_, hin 1 y1 hy1, _, hin 0 y0 hy0, by simpa [FVal.ofReal, FVal.lt] using h⟩

/-- The injected candidate in dimension 1, isotropic distribution, gradient `g = ±1`. -/
theorem ask_injected {env : Env 1} {s : Strat 1} {g : ℝ} (hg : g * g = 1)
    (hgf : env.gfunc = some fun _ _ _ => g) (hgr : s.p.withGradient = true) (hgp : s.p.gp = GenoPheno.plain)
    (hfx : s.p.fixedP = []) (hsep : s.p.sep = false) (hvd : s.p.vd = false) (htpa : s.p.tpa ≠ 2)
    (hni : s.niter = 0) (hcov : s.sol.hasCov = true) (hone : s.sol.cov = 1) (hl : 1 ≤ s.p.lambda) :
    ∃ pop s1, s.ask env = .ok (pop, s1) ∧ ∃ x, pop[0]? = some x ∧ x 0 = s.sol.xmean 0 - s.sol.sigma * g := by
  obtain ⟨l, hl'⟩ : ∃ l, s.p.lambda = l + 1 := ⟨s.p.lambda - 1, by omega⟩
  set e := env.eig.solve s.sol.cov with he
  have hsym : (1 : Mat 1).IsSymm := transpose_one
  have ho := env.eig.orth 1 hsym
  have hd := env.eig.decomp 1 hsym
  rw [← hone, ← he] at ho hd
  have ho' : e.2 0 0 * e.2 0 0 = 1 := by
    have := congrFun (congrFun ho 0) 0
    rw [hone] at this
    simpa [mul_apply] using this
  have hd' : e.1 0 = 1 := by
    have := congrFun (congrFun hd 0) 0
    rw [hone] at this
    simp [mul_apply, diagonal] at this
    have h2 : e.2 0 0 * e.1 0 * e.2 0 0 = (e.2 0 0 * e.2 0 0) * e.1 0 := by ring
    rw [h2, ho', one_mul] at this
    exact this
  have hgg : ∀ (t : Strat 1) (x : Vec 1), t.p.gp = GenoPheno.plain → t.gradgp x = .ok fun _ => 1 := by
    intro t x ht
    unfold Strat.gradgp
    rw [ht, phenoV_plain, phenoV_plain]
    show Except.ok _ = _
    congr 1
    funext i
    have : 0 < Strat.gradEps x i := by unfold Strat.gradEps; positivity
    show ((x i + Strat.gradEps x i) - (x i - Strat.gradEps x i)) / (2 * Strat.gradEps x i) = 1
    rw [div_eq_one_iff_eq (by positivity)]
    ring
  have hgrad : ((fun _ => g) * fun _ => 1 : Vec 1) = fun _ => g := by funext i; show g * 1 = g; ring
  have hg0 : (fun _ => g : Vec 1) ≠ 0 := by
    intro h
    have : g = 0 := congrFun h 0
    rw [this] at hg; norm_num at hg
  have hq : ((e.2 * diagonal (fun i => Real.sqrt (e.1 i)) * e.2ᵀ).mulVec fun _ => g) = fun _ => g := by
    funext i
    have hi : i = 0 := Subsingleton.elim _ _
    subst hi
    simp only [mulVec, dotProduct, Fin.sum_univ_one, mul_apply, diagonal_apply, transpose_apply, if_pos, hd',
      Real.sqrt_one, Fin.isValue]
    rw [mul_one, ho', one_mul]
  have hsq : sqNorm (fun _ => g : Vec 1) = 1 := by simp [sqNorm, hg]
  unfold Strat.ask Strat.askPrepare
  rw [if_pos (by simp [hsep, hvd]), if_pos (Or.inl hni), if_neg (by simp [hcov])]
  simp only [Out.ok_bind]
  unfold Strat.askSample
  simp only
  rw [if_pos (by simp [hsep, hvd]), if_neg (by simp)]
  simp only [Out.ok_bind]
  unfold Strat.askGradient
  simp only
  rw [if_neg (by simp [hgr]), hgp, phenoV_plain]
  simp only [Out.ok_bind]
  unfold Strat.gradf
  rw [hgf]
  simp only [Out.ok_bind]
  rw [hgg _ _ ?_]
  swap
  · exact hgp
  simp only [Out.ok_bind]
  rw [hgrad, if_neg hg0, if_neg (by simp [hl']), if_pos (by simp [hsep, hvd])]
  rw [if_pos (by intro i; rw [Subsingleton.elim i 0, hd']; norm_num), hq, hsq, if_neg one_ne_zero]
  simp only [Out.pure_eq, Out.ok_bind]
  unfold Strat.askTpa
  rw [if_neg (by simp [htpa])]
  simp only [Out.ok_bind]
  rw [hfx, show (setFixed [] : Vec 1 → Out (Vec 1)) = fun x => .ok (id x) from rfl, mapM_ok]
  refine ⟨_, _, rfl, s.sol.xmean - (s.sol.sigma * Real.sqrt ((1 : ℕ) / 1)) • s.sol.cov.mulVec fun _ => g, ?_, ?_⟩
  · rw [List.map_id, hl', List.range_succ_eq_map]
    simp only [List.map_cons, List.set_cons_zero, List.getElem?_cons_zero]
  · simp [hone]

/-- **C35 fails with a gradient function supplied by the user**: it is not negated.  Maximising `x ↦ x` with its
gradient 1, the injected first candidate goes one step size down; minimising `x ↦ -x` with gradient -1 it goes
one step size up. -/
theorem C35_gradient_false :
    ∃ (env env' : Env 1) (p : Params 1) (s s' s1 s1' : Strat 1) (pop pop' : List (Vec 1)) (x x' : Vec 1),
      env.f = (fun _ x => FVal.ofReal (x 0)) ∧ env.gfunc = some (fun _ _ _ => 1) ∧
      env' = { env with f := fun k x => (env.f k x).neg, gfunc := some fun _ _ _ => -1 } ∧
      p.maximize = true ∧ p.withGradient = true ∧ Strat.new env .plain p = .ok s ∧
      Strat.new env' .plain { p with maximize := false } = .ok s' ∧
      s.ask env = .ok (pop, s1) ∧ s'.ask env' = .ok (pop', s1') ∧ pop[0]? = some x ∧ pop'[0]? = some x' ∧
      0 < s.sol.sigma ∧ x 0 = s.sol.xmean 0 - s.sol.sigma ∧ x' 0 = s.sol.xmean 0 + s.sol.sigma := by
  obtain ⟨p, hp, _⟩ := C11_weights (n := 1) le_rfl (fun _ => 0) 1 (-1) 0 0 GenoPheno.plain
  obtain ⟨hu, hgp, hfx, -⟩ := usual_default (by norm_num) hp (kind := .plain) (by decide)
  obtain ⟨hsep, hvd⟩ := Params.make_flags hp
  set q : Params 1 := { p with maximize := true, withGradient := true } with hq
  have hq1 : Configured q :=
    hu.configured.other ⟨rfl, rfl, rfl, rfl, rfl, rfl, rfl, rfl, rfl, rfl, rfl, rfl, rfl, rfl, rfl, rfl, rfl⟩
  have hq2 : Configured { q with maximize := false } :=
    hu.configured.other ⟨rfl, rfl, rfl, rfl, rfl, rfl, rfl, rfl, rfl, rfl, rfl, rfl, rfl, rfl, rfl, rfl, rfl⟩
  set env : Env 1 := { Env.basic (fun _ x => FVal.ofReal (x 0)) (fun _ _ => 0) with gfunc := some fun _ _ _ => 1 }
    with henv
  set env' : Env 1 := { env with f := fun k x => (env.f k x).neg, gfunc := some fun _ _ _ => -1 } with henv'
  obtain ⟨s, hs⟩ := new_plain (env := env) (kind := .plain) (p := q) hgp hq1.good.1
  obtain ⟨s', hs'⟩ := new_plain (env := env') (kind := .plain) (p := { q with maximize := false }) hgp hq2.good.1
  have ask : ∀ (ev : Env 1) (g : ℝ) (b : Bool) (t : Strat 1), g * g = 1 → ev.gfunc = some (fun _ _ _ => g) →
      Strat.new ev .plain { q with maximize := b } = .ok t → ∃ pop t1, t.ask ev = .ok (pop, t1) ∧
        ∃ x, pop[0]? = some x ∧ x 0 = t.sol.xmean 0 - t.sol.sigma * g := by
    intro ev g b t hg hgf ht
    obtain ⟨h1, h2, h3, h4, h5, h6, h7, h8, h9, h10, h11, h12, h13, h14, h15, h16, h17, h18, h19, h20⟩ :=
      Strat.new_ok ht
    refine ask_injected hg hgf ?_ ?_ ?_ ?_ ?_ ?_ h7 ?_ h6.cov ?_
    · rw [h4]
    · rw [h4]; exact hgp
    · rw [h4]; exact hfx
    · rw [h4]; exact hsep
    · rw [h4]; exact hvd
    · rw [h4]; exact hu.tpa
    · rw [h11]
      show (!p.sep && !p.vd) = true
      rw [hsep, hvd]; rfl
    · rw [h4]; exact le_trans (by norm_num) hu.configured.good.1.lambda
  obtain ⟨pop, s1, ha, x, hx, ex⟩ := ask env 1 true s (by norm_num) rfl hs
  obtain ⟨pop', s1', ha', x', hx', ex'⟩ := ask env' (-1) false s' (by norm_num) rfl hs'
  have hsame : s'.sol = s.sol := by
    have h := Strat.new_flip env .plain q
    rw [hs] at h
    have h' : Strat.new env' .plain { q with maximize := false } = .ok s.flip := h
    rw [hs'] at h'
    injection h' with h'
    rw [h']; rfl
  refine ⟨env, env', q, s, s', s1, s1', pop, pop', x, x', rfl, rfl, rfl, rfl, rfl, hs, hs', ha, ha', hx, hx',
    (Strat.new_ok hs).2.2.2.2.1, ?_, ?_⟩
  · rw [ex, mul_one]
  · rw [ex', hsame]; ring

end Libcmaes
