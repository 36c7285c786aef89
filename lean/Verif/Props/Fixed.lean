import Verif.Lemmas.FixCalls
import Verif.Lemmas.Witness
import Verif.Props.Total
import Verif.Props.Sampling

/-!
# C30: fixed coordinates over whole runs

The theorems quantify over all environments, that is over all objectives, draws and schedules, and over
all settings: elitism, uncertainty handling, gradient injection and two-point adaptation are included.
-/

namespace Libcmaes

open Spec

variable {n : ℕ}

/-- **C30**: in each generation the mean and all candidates, injected ones included, have the fixed
values. -/
theorem C30_generations (env : Env n) (kind : CovKind) (p : Params n) (s s' : Strat n) (k : ℕ)
    (hc : Configured p) (hsc : p.gp.scale = .noScaling) (hn : Strat.new env kind p = .ok s)
    (h : s.generations env k = .ok s') :
    FixedAt p s'.sol.xmean ∧ (0 < k → ∀ c ∈ s'.sol.cands, FixedAt p c.x) := by
  have key : ∀ (k : ℕ) (s s' : Strat n), FixInv p.fixedP s → s.generations env k = .ok s' →
      FixInv p.fixedP s' ∧ (0 < k → ∀ c ∈ s'.sol.cands, FixedAt s'.p c.x) := by
    intro k
    induction k with
    | zero => intro s s' hi h; injection h with h; exact ⟨h ▸ hi, fun h => absurd h (lt_irrefl 0)⟩
    | succ k ih =>
      intro s s' hi h
      unfold Strat.generations at h
      obtain ⟨s1, h1, h⟩ := Out.bind_eq_ok.1 h
      have := hi.generation h1
      rcases Nat.eq_zero_or_pos k with rfl | hk
      · injection h with h; rw [← h]; exact ⟨this.1, fun _ => this.2⟩
      · exact ⟨(ih _ _ this.1 h).1, fun _ => (ih _ _ this.1 h).2 hk⟩
  obtain ⟨hi, hk⟩ := key k s s' (.new hc.good.1 hsc hn) h
  have : ∀ x, FixedAt s'.p x → FixedAt p x := by
    intro x hx i v hv
    exact hx i v (by rw [hi.fixed]; exact hv)
  exact ⟨this _ hi.mean, fun h c hc => this _ (hk h c hc)⟩

/-- **C30** at the end of `optimize`: also the best candidate seen has the fixed values. -/
theorem C30_optimize (env : Env n) (kind : CovKind) (p : Params n) (s s' : Strat n) (fuel : ℕ)
    (hc : Configured p) (hsc : p.gp.scale = .noScaling) (hn : Strat.new env kind p = .ok s)
    (h : s.optimize env fuel = .ok (some s')) :
    FixedAt p s'.sol.xmean ∧ ∀ c, s'.sol.bestSeen = some c → FixedAt p c.x := by
  have hi := (FixInv.new hc.good.1 hsc hn).optimize fuel h
  have : ∀ x, FixedAt s'.p x → FixedAt p x := by
    intro x hx i v hv
    exact hx i v (by rw [hi.fixed]; exact hv)
  exact ⟨this _ hi.mean, fun c hc => this _ (hi.seen c hc)⟩

/-- **C30** at the calls of the objective, over a whole search with or without restarts: the user's function
only sees points with the fixed values (transforms that leave the fixed coordinates alone; no uncertainty
handling, no numerical gradients). -/
theorem C30_calls (env : Env n) (kind : CovKind) (p : Params n) (fuel : ℕ)
    (hc : Configured p) (hsc : p.gp.scale = .noScaling)
    (hid : ∀ x y, phenoV p.gp x = .ok y → FixedAt p x → FixedAt p y)
    (huh : p.uh = false) (hg : p.withGradient = false) (he : p.withEdm = false) :
    (∀ s s', Strat.new env kind p = .ok s → s.optimize env fuel = .ok (some s') →
      ∀ q ∈ s'.calls, FixedAt p q.1) ∧
    (∀ s s' b, Strat.new env kind p = .ok s → s.ipopOptimize env fuel = .ok (some (s', b)) →
      ∀ q ∈ s'.calls, FixedAt p q.1) ∧
    (∀ b l, Bipop.new env kind p = .ok b → b.optimize env fuel = .ok (some l) →
      ∀ q ∈ l.b.s.calls, FixedAt p q.1) := by
  refine ⟨fun s s' hn h => ?_, fun s s' b hn h => ?_, fun b l hn h => ?_⟩
  · exact ((FixCalls.new huh hg he hid hn).optimize fuel (FixInv.new hc.good.1 hsc hn) h).2.calls
  · have := Strat.ipopLoop_induct₂ (I := fun s => FixInv p.fixedP s ∧ FixCalls p s)
      (J := fun s => FixBase p.fixedP s ∧ FixCalls p s) (K := fun s => FixBase p.fixedP s ∧ FixCalls p s)
      (fun s s' hi h => by
        have := hi.2.optimize fuel hi.1 h
        exact ⟨this.1.toFixBase, this.2⟩)
      (fun s s' hi h => by
        obtain ⟨q, hq, e⟩ := lambdaInc_step h
        rw [e]; exact ⟨hi.1.param hq, hi.2.param hq⟩)
      (fun s s' hi h => ⟨hi.1.reset h, hi.2.reset h⟩) _
      ⟨FixInv.new hc.good.1 hsc hn, FixCalls.new huh hg he hid hn⟩ h
    exact this.2.calls
  · obtain ⟨s, h1, h2, _⟩ := Bipop.new_ok hn
    have i1 := (FixInv.new hc.good.1 hsc h1).toFixBase.param .pop
    have i2 := (FixCalls.new huh hg he hid h1).param .pop
    have := Bipop.optimize_induct₂ (I := fun s => FixInv p.fixedP s ∧ FixCalls p s)
      (J := fun s => FixBase p.fixedP s ∧ FixCalls p s) (fun s hi => ⟨hi.1.toFixBase, hi.2⟩)
      (fun s s' hi h => by
        have := hi.2.optimize fuel hi.1 h
        exact ⟨this.1.toFixBase, this.2⟩)
      (fun s q hi hq => ⟨hi.1.param hq, hi.2.param hq⟩)
      (fun s m hi => ⟨⟨hi.1.toFixBase.param (.budget m), hi.1.cands⟩, hi.2.param (.budget m)⟩)
      (fun s s' hi h => ⟨hi.1.reset h, hi.2.reset h⟩) ⟨i1.reset h2, i2.reset h2⟩ h
    exact this.2.calls

/-- The hypotheses are met: in each dimension from 2 on, a run with the first coordinate fixed at 1 that goes on
for any number of generations, whatever the (NaN-free) objective and the draws. -/
example (hn : 2 ≤ n) (env : Env n) (hf : ∀ k y, (env.f k y).IsNum) :
    ∃ p s, Configured p ∧ p.gp.scale = .noScaling ∧ (0, (1 : ℝ)) ∈ p.fixedP ∧ Strat.new env .plain p = .ok s ∧
      ∀ k, ∃ s', s.generations env k = .ok s' := by
  obtain ⟨p, hp, _⟩ := C11_weights (by omega : 1 ≤ n) (fun _ => 0) 1 (-1) 1 1 GenoPheno.plain
  obtain ⟨hu, hgp, hfp, _⟩ := usual_default (kind := .plain) (by norm_num) hp (by decide)
  have hu' := usual_fix (i := 0) (v := 1) hu (by omega) (by rw [hfp]; simp; omega)
  obtain ⟨s, hs⟩ := new_plain (env := env) (kind := .plain) (p := p.setFixedP 0 1) hgp hu'.configured.good.1
  refine ⟨_, s, hu'.configured, ?_, ?_, hs, fun k => ?_⟩
  · show p.gp.scale = _; rw [hgp]; rfl
  · show _ ∈ mapInsert p.fixedP 0 1
    rw [hfp]; simp [mapInsert]
  · rcases C67_total env .plain _ s hu' hf hs k with h | ⟨x, e, h1, _⟩
    · exact h
    · have : (p.setFixedP 0 1).gp = GenoPheno.plain := hgp
      rw [this, phenoV_plain] at h1; cases h1

/-- **C30** fails with linear scaling: the fixed value is scaled in the initial mean but written as it is, in
internal units, into the candidates.  With a scaling by 2 and the first coordinate fixed at 1, the initial
mean stands for a point with first coordinate 1, and all points given to the user's function have first
coordinate 1/2. -/
theorem C30_scaled_false (hn : 2 ≤ n) (env : Env n) (x0 : Vec n) (sigma : ℝ) (seed clock : ℕ) :
    ∃ p s y pop s1 phen, Params.make x0 sigma (-1) seed clock (doubled n) = .ok p ∧
      Strat.new env .plain (p.setFixedP 0 1) = .ok s ∧
      phenoV (doubled n) s.sol.xmean = .ok y ∧ y ⟨0, by omega⟩ = 1 ∧
      s.ask env = .ok (pop, s1) ∧ s1.phenoCols pop = .ok phen ∧ phen ≠ [] ∧
      ∀ y ∈ phen, y ⟨0, by omega⟩ = 1 / 2 := by
  obtain ⟨p, hp, _⟩ := C11_weights (by omega : 1 ≤ n) x0 sigma (-1) seed clock (doubled n)
  obtain ⟨hu, hgp, hfp, _⟩ := usual_default (kind := .plain) (by norm_num) hp (by decide)
  have hu' := usual_fix (i := 0) (v := 1) hu (by omega) (by rw [hfp]; simp; omega)
  have hgp' : (p.setFixedP 0 1).gp = doubled n := hgp
  have hfp' : (p.setFixedP 0 1).fixedP = [(0, (1 : ℝ))] := by
    show mapInsert p.fixedP 0 1 = _
    rw [hfp]; simp [mapInsert]
  set q := p.setFixedP 0 1 with hq
  have hg := hu'.configured.good.1
  -- the initial mean
  obtain ⟨m, hm, hm0⟩ : ∃ m, initialMean q (env.rnd 0) = .ok m ∧ m ⟨0, by omega⟩ = 2 := by
    unfold initialMean
    simp only
    obtain ⟨m, hm⟩ := (setFixed_ok_iff q.fixedP (if q.x0min = q.x0max then
      if q.x0min = fun _ => -dblMax then fun i => env.rnd 0 i * 4 else q.x0min
      else fun i => 0.5 * (env.rnd 0 i + 1) * (q.x0max i - q.x0min i) + q.x0min i)).2 hg.fixed_lt
    rw [hm, Out.ok_bind, hgp', scaleToInternalV_doubled]
    refine ⟨_, rfl, ?_⟩
    have := setFixed_of_mem hm hg.fixed_nodup ⟨0, by omega⟩ 1 (by rw [hfp']; simp)
    rw [this]; norm_num
  obtain ⟨s, hs⟩ : ∃ s, Strat.new env .plain q = .ok s := by
    unfold Strat.new Sol.make
    rw [hm, Out.ok_bind, if_neg (by have := hg.dim; have := hg.lambda; omega)]
    exact ⟨_, rfl⟩
  obtain ⟨_, _, _, hsp, _, _, _, _, _, _, _, _, _, _, _, _, _, _, hsm, _⟩ := Strat.new_ok hs
  have hxm : s.sol.xmean = m := by rw [hm] at hsm; injection hsm with h; exact h.symm
  obtain ⟨pop, s1, ha, _⟩ := Strat.ask_total (env := env) (askLive_new hu'.configured hu'.vd hu'.grad hu'.tpa hs)
  obtain ⟨⟨es, ei, ue, c, nz, x1, x2, p1, p2, e1⟩, hpl⟩ := Strat.ask_frame ha
  have hs1 : s1.p.gp = doubled n := by rw [e1, hsp]; exact hgp'
  obtain ⟨phen, hph⟩ : ∃ phen, s1.phenoCols pop = .ok phen := by
    unfold Strat.phenoCols
    rw [hs1]
    exact Out.mapM_ok_of fun x _ => ⟨_, phenoV_doubled x⟩
  have hlam : 2 ≤ s.p.lambda := by rw [hsp]; exact hg.lambda
  refine ⟨p, s, _, pop, s1, phen, hp, hs, phenoV_doubled _, ?_, ha, hph, ?_, ?_⟩
  · rw [hxm, hm0]; norm_num
  · intro h0
    have := Out.mapM_length hph
    rw [h0, hpl, List.length_nil] at this
    omega
  · intro y hy
    unfold Strat.phenoCols at hph
    obtain ⟨x, hx, hxy⟩ := Out.mapM_mem hph hy
    rw [hs1, phenoV_doubled] at hxy
    injection hxy with hxy
    have hfs : s.p.fixedP = [(0, (1 : ℝ))] := by rw [hsp]; exact hfp'
    have := (C19_fixed env s s1 pop (by rw [hfs]; simp) ha).2 x hx ⟨0, by omega⟩ 1 (by rw [hfs]; simp)
    rw [← hxy]
    show x _ / 2 = _
    rw [this]

end Libcmaes
