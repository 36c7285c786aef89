import Verif.Spec.Python
import Verif.Lemmas.RestartWit
import Verif.Lemmas.Resume
import Verif.Props.Eval

/-!
# Lemmas for C103
-/

namespace Libcmaes

open Spec

variable {n : ℕ}

theorem PyOut.lift_ok {α : Type} {o : Out α} {a : α} : PyOut.lift o = .ok a ↔ o = .ok a := by
  cases o with
  | ok b => exact ⟨fun h => by injection h with h; rw [h], fun h => by injection h with h; rw [h]; rfl⟩
  | error e => exact ⟨fun h => (nomatch h), fun h => (nomatch h)⟩

theorem PyOut.bind_eq_ok {α β : Type} {o : PyOut α} {f : α → PyOut β} {b : β} :
    (o >>= f) = .ok b ↔ ∃ a, o = .ok a ∧ f a = .ok b := by
  cases o with
  | ok a => exact ⟨fun h => ⟨a, rfl, h⟩, fun ⟨a', h, h'⟩ => by injection h with h; rw [h]; exact h'⟩
  | error e => exact ⟨fun h => (nomatch h), fun ⟨_, h, _⟩ => (nomatch h)⟩

/-- Calling a setter: success depends on the keyword only. -/
theorem PyKw.call_ok (clock : ℕ) (kw : PyKw) (hk : KwOk kw) (p : Params n) :
    (∃ q, kw.call clock p = .ok q) ↔ kwName kw ∈ settable := by
  cases kw <;> simp only [PyKw.call, kwName, settable, List.mem_cons, List.not_mem_nil, reduceCtorEq, exists_false, false_iff,
    Except.ok.injEq, exists_eq', String.reduceEq, or_false, or_true]
  rename_i s
  have := (hk s rfl).1
  simpa [settable] using this

/-- What the setters leave alone. -/
theorem PyKw.call_gp {clock : ℕ} {kw : PyKw} {p q : Params n} (h : kw.call clock p = .ok q) :
    q.gp = p.gp ∧ (kw ≠ .uh true → p.uh = false → q.uh = false) ∧
      (kw ≠ .gradient true → p.withGradient = false → q.withGradient = false) ∧
      (kw ≠ .edm true → p.withEdm = false → q.withEdm = false) := by
  cases kw <;> simp only [PyKw.call, Except.ok.injEq, reduceCtorEq] at h <;> subst h <;>
    refine ⟨rfl, ?_, ?_, ?_⟩ <;>
    first
    | exact fun _ h => h
    | (rename_i b; cases b <;> simp)

theorem callAll_gp {clock : ℕ} {l : List PyKw} {p q : Params n} (h : callAll clock l p = .ok q) :
    q.gp = p.gp ∧ ((∀ kw ∈ l, kw ≠ .uh true) → p.uh = false → q.uh = false) ∧
      ((∀ kw ∈ l, kw ≠ .gradient true) → p.withGradient = false → q.withGradient = false) ∧
      ((∀ kw ∈ l, kw ≠ .edm true) → p.withEdm = false → q.withEdm = false) := by
  induction l generalizing p with
  | nil => injection h with h; subst h; exact ⟨rfl, fun _ h => h, fun _ h => h, fun _ h => h⟩
  | cons kw l ih =>
    obtain ⟨p1, h1, h2⟩ := PyOut.bind_eq_ok.1 h
    obtain ⟨a1, a2, a3, a4⟩ := PyKw.call_gp h1
    obtain ⟨b1, b2, b3, b4⟩ := ih h2
    exact ⟨b1.trans a1, fun g e => b2 (fun k hk => g k (List.mem_cons_of_mem _ hk)) (a2 (g kw List.mem_cons_self) e),
      fun g e => b3 (fun k hk => g k (List.mem_cons_of_mem _ hk)) (a3 (g kw List.mem_cons_self) e),
      fun g e => b4 (fun k hk => g k (List.mem_cons_of_mem _ hk)) (a4 (g kw List.mem_cons_self) e)⟩

/-- Setters of plain keywords. -/
theorem callAll_plain {clock : ℕ} {l : List PyKw} {p q : Params n} (hl : ∀ kw ∈ l, KwPlain kw)
    (h : callAll clock l p = .ok q) :
    ∃ a b c d e f g m, q =
      { p with nrestarts := a, maxIter := b, maxFevals := c, ftarget := d, seed := e, ftolerance := f, xtol := g, mtFeval := m } := by
  induction l generalizing p with
  | nil =>
    injection h with h
    exact ⟨p.nrestarts, p.maxIter, p.maxFevals, p.ftarget, p.seed, p.ftolerance, p.xtol, p.mtFeval, by rw [h]⟩
  | cons kw l ih =>
    obtain ⟨p1, h1, h2⟩ := PyOut.bind_eq_ok.1 h
    obtain ⟨a, b, c, d, e, f, g, m, hq⟩ := ih (fun k hk => hl k (List.mem_cons_of_mem _ hk)) h2
    have hk := hl kw List.mem_cons_self
    cases kw <;> simp only [PyKw.call, Except.ok.injEq, reduceCtorEq] at h1 <;> try exact hk.elim
    all_goals subst h1; exact ⟨a, b, c, d, e, f, g, m, hq⟩

/-- The setting is made. -/
theorem PyKw.call_holds {clock : ℕ} {kw : PyKw} {p q : Params n} (hc : p.seed ≠ 0)
    (h : kw.call clock p = .ok q) : KwHolds q kw := by
  cases kw <;> simp only [PyKw.call, Except.ok.injEq, reduceCtorEq] at h <;> subst h <;> try trivial
  all_goals first
    | rfl
    | (unfold KwHolds Params.setSeed; simp [hc])

/-- Another keyword does not undo it. -/
theorem PyKw.call_keeps {clock : ℕ} {kw kw' : PyKw} {p q : Params n} (hne : kwName kw' ≠ kwName kw)
    (hh : KwHolds p kw) (h : kw'.call clock p = .ok q) : KwHolds q kw := by
  cases kw' <;> simp only [PyKw.call, Except.ok.injEq, reduceCtorEq] at h <;> subst h <;> cases kw <;>
    first
    | exact hh
    | exact absurd rfl hne

/-- Setters of different keywords commute. -/
theorem PyKw.call_comm (clock : ℕ) {kw kw' : PyKw} {p : Params n} (hne : kwName kw' ≠ kwName kw) {q q' q1 q1' : Params n}
    (h1 : kw.call clock p = .ok q) (h2 : kw'.call clock q = .ok q1) (h3 : kw'.call clock p = .ok q')
    (h4 : kw.call clock q' = .ok q1') : q1 = q1' := by
  cases kw <;> simp only [PyKw.call, Except.ok.injEq, reduceCtorEq] at h1 h4 <;>
    cases kw' <;> simp only [PyKw.call, Except.ok.injEq, reduceCtorEq] at h2 h3 <;>
    first
    | exact absurd rfl hne
    | (subst h1 h2 h3 h4; rfl)

theorem PyKw.call_iff (clock : ℕ) (kw : PyKw) (p q : Params n) : (∃ r, kw.call clock p = .ok r) ↔ ∃ r, kw.call clock q = .ok r := by
  cases kw <;> simp [PyKw.call]

/-- Keywords of pairwise different names can be given in any order. -/
theorem callAll_perm {clock : ℕ} {l l' : List PyKw} (hl : l.Perm l') (hn : (l.map kwName).Nodup) {p q : Params n}
    (h : callAll clock l p = .ok q) : callAll clock l' p = .ok q := by
  induction hl generalizing p with
  | nil => exact h
  | cons kw _ ih =>
    obtain ⟨p1, h1, h2⟩ := PyOut.bind_eq_ok.1 h
    exact PyOut.bind_eq_ok.2 ⟨p1, h1, ih (List.nodup_cons.1 hn).2 h2⟩
  | swap kw kw' l =>
    obtain ⟨p1, h1, h2⟩ := PyOut.bind_eq_ok.1 h
    obtain ⟨p2, h3, h4⟩ := PyOut.bind_eq_ok.1 h2
    have hne : kwName kw ≠ kwName kw' := by
      intro e
      have := (List.nodup_cons.1 hn).1
      exact this (by rw [← e]; exact List.mem_cons_self)
    obtain ⟨q1, e1⟩ := (PyKw.call_iff clock kw p1 p).1 ⟨p2, h3⟩
    obtain ⟨q2, e2⟩ := (PyKw.call_iff clock kw' p q1).1 ⟨p1, h1⟩
    have := PyKw.call_comm clock hne h1 h3 e1 e2
    subst this
    exact PyOut.bind_eq_ok.2 ⟨q1, e1, PyOut.bind_eq_ok.2 ⟨_, e2, h4⟩⟩
  | trans h1 h2 ih1 ih2 => exact ih2 ((h1.map kwName).nodup_iff.1 hn) (ih1 hn h)

/-- All keywords have one-valued setters, or one of them fails. -/
theorem callAll_ok (clock : ℕ) (l : List PyKw) (hl : ∀ kw ∈ l, KwOk kw) (p : Params n) :
    (∃ q, callAll clock l p = .ok q) ↔ ∀ kw ∈ l, kwName kw ∈ settable := by
  induction l generalizing p with
  | nil => exact ⟨fun _ kw h => (nomatch h), fun _ => ⟨p, rfl⟩⟩
  | cons kw l ih =>
    have ih' := fun p => ih (fun k hk => hl k (List.mem_cons_of_mem _ hk)) p
    have hk := PyKw.call_ok clock kw (hl kw List.mem_cons_self) p
    constructor
    · rintro ⟨q, h⟩ k hmem
      obtain ⟨p1, h1, h2⟩ := PyOut.bind_eq_ok.1 h
      rcases List.mem_cons.1 hmem with rfl | hmem
      · exact hk.1 ⟨_, h1⟩
      · exact (ih' p1).1 ⟨q, h2⟩ k hmem
    · intro h
      obtain ⟨p1, h1⟩ := hk.2 (h kw List.mem_cons_self)
      obtain ⟨q, h2⟩ := (ih' p1).2 fun k hk => h k (List.mem_cons_of_mem _ hk)
      exact ⟨q, PyOut.bind_eq_ok.2 ⟨p1, h1, h2⟩⟩

theorem PyKw.call_seed {clock : ℕ} {kw : PyKw} {p q : Params n} (hs : ∀ k, kw = .seed k → Params.toU64 k ≠ 0)
    (hc : p.seed ≠ 0) (h : kw.call clock p = .ok q) : q.seed ≠ 0 := by
  cases kw <;> simp only [PyKw.call, Except.ok.injEq, reduceCtorEq] at h <;> subst h <;> try exact hc
  rename_i k
  unfold Params.setSeed
  simpa [hc] using hs k rfl

theorem callAll_holds {clock : ℕ} {l : List PyKw} (hn : (l.map kwName).Nodup) {p q : Params n}
    (hc : p.seed ≠ 0) (h : callAll clock l p = .ok q) : ∀ kw ∈ l, KwHolds q kw := by
  have keeps : ∀ (l : List PyKw) (p q : Params n) (kw : PyKw), kwName kw ∉ l.map kwName → KwHolds p kw →
      callAll clock l p = .ok q → KwHolds q kw := by
    intro l
    induction l with
    | nil => intro p q kw _ hh h; injection h with h; exact h ▸ hh
    | cons k l ih =>
      intro p q kw hnot hh h
      obtain ⟨p1, h1, h2⟩ := PyOut.bind_eq_ok.1 h
      rw [List.map_cons, List.mem_cons, not_or] at hnot
      exact ih p1 q kw hnot.2 (PyKw.call_keeps (fun e => hnot.1 e.symm) hh h1) h2
  -- only one keyword can be the seed, so the seed is not 0 when it is called
  intro kw hmem
  obtain ⟨l', hperm⟩ : ∃ l', l.Perm (kw :: l') := by
    obtain ⟨a, b, rfl⟩ := List.append_of_mem hmem
    exact ⟨a ++ b, List.perm_middle⟩
  have h' := callAll_perm hperm hn h
  have hn' := (hperm.map kwName).nodup_iff.1 hn
  obtain ⟨p1, h1, h2⟩ := PyOut.bind_eq_ok.1 h'
  exact keeps l' p1 q kw (List.nodup_cons.1 hn').1 (PyKw.call_holds hc h1) h2

/-! ### The search -/

theorem setStrAlgo_keeps (p : Params n) (a : String) :
    (p.setStrAlgo a).gp = p.gp ∧ (p.setStrAlgo a).uh = p.uh ∧ (p.setStrAlgo a).withGradient = p.withGradient ∧
      (p.setStrAlgo a).withEdm = p.withEdm ∧ (p.setStrAlgo a).seed = p.seed := by
  unfold Params.setStrAlgo
  cases mapFind Params.algoTable a <;> simp only <;> split_ifs <;> (try unfold Params.setVd) <;> (try split_ifs) <;>
    exact ⟨rfl, rfl, rfl, rfl, rfl⟩

theorem launchParams_keeps {p q : Params n} {l : Launch} (h : launchParams p = some (l, q)) :
    q.gp = p.gp ∧ q.uh = p.uh ∧ q.withGradient = p.withGradient ∧ q.withEdm = p.withEdm := by
  unfold launchParams at h
  rw [Option.map_eq_some_iff] at h
  obtain ⟨l', -, he⟩ := h
  simp only [Prod.mk.injEq] at he
  obtain ⟨-, rfl⟩ := he
  split_ifs <;> (try unfold Params.setVd) <;> (try split_ifs) <;> exact ⟨rfl, rfl, rfl, rfl⟩

/-- Whatever the algorithm, the objective is called within the box of the transform. -/
theorem cmaesCalls_box {env : Env n} {fuel : ℕ} {p : Params n} {lb ub : Vec n} {calls : List (Vec n × FVal)}
    (hg : SoundBoxTransform (List.ofFn lb) (List.ofFn ub) p.gp) (huh : p.uh = false)
    (hgrad : (p.withGradient || p.withEdm) = true → env.gfunc = none → ∀ i : Fin n, p.gp.uBound i.val = .ok (ub i))
    (h : cmaesCalls env fuel p = .ok (some calls)) : ∀ q ∈ calls, ∀ i, lb i ≤ q.1 i ∧ q.1 i ≤ ub i := by
  unfold cmaesCalls at h
  cases hl : launchParams p with
  | none => rw [hl] at h; injection h with h; injection h with h; subst h; intro q hq; cases hq
  | some lq =>
    obtain ⟨l, q⟩ := lq
    obtain ⟨e1, e2, e3, e4⟩ := launchParams_keeps hl
    rw [← e1] at hg hgrad
    rw [← e2] at huh
    rw [← e3, ← e4] at hgrad
    rw [hl] at h
    simp only at h
    cases hr : l.restart <;> rw [hr] at h <;> simp only at h
    · obtain ⟨s, h0, h⟩ := Out.bind_eq_ok.1 h
      obtain ⟨r, h1, h⟩ := Out.bind_eq_ok.1 h
      injection h with h
      obtain ⟨t, rfl, rfl⟩ := Option.map_eq_some_iff.1 h
      exact C38_optimize env l.cov q s t fuel lb ub hg huh hgrad h0 h1
    · obtain ⟨s, h0, h⟩ := Out.bind_eq_ok.1 h
      obtain ⟨r, h1, h⟩ := Out.bind_eq_ok.1 h
      injection h with h
      obtain ⟨t, rfl, rfl⟩ := Option.map_eq_some_iff.1 h
      exact C38_ipop env l.cov q s t.1 fuel lb ub t.2 hg huh hgrad h0 h1
    · obtain ⟨s, h0, h⟩ := Out.bind_eq_ok.1 h
      obtain ⟨r, h1, h⟩ := Out.bind_eq_ok.1 h
      injection h with h
      obtain ⟨t, rfl, rfl⟩ := Option.map_eq_some_iff.1 h
      exact C38_bipop env l.cov q s fuel lb ub t hg huh hgrad h0 h1

/-- The interface calls the binding for the class of the object. -/
theorem pyPcmaes_eq (env : Env n) (fuel : ℕ) (pp : PyParams n) :
    pyPcmaes env fuel pp = PyOut.lift (cmaesCalls env fuel pp.p) := by
  unfold pyPcmaes boundPcmaes
  cases h : pp.cls <;> simp

/-- The matrix of a diagonal search stays empty. -/
theorem generation_hasCov {env : Env n} {s s' : Strat n} (hsep : s.p.sep = true) (h : s.generation env = .ok s') :
    s'.sol.hasCov = s.sol.hasCov := by
  unfold Strat.generation at h
  obtain ⟨⟨pop, s1⟩, ha, h⟩ := Out.bind_eq_ok.1 h
  obtain ⟨phen, hp, h⟩ := Out.bind_eq_ok.1 h
  obtain ⟨s2, he, h⟩ := Out.bind_eq_ok.1 h
  obtain ⟨s3, ht, h⟩ := Out.bind_eq_ok.1 h
  injection h with h
  subst h
  obtain ⟨⟨es, ei, ue, c, nz, x1, x2, p1, p2, e1⟩, hpl⟩ := Strat.ask_frame ha
  obtain ⟨c2, nu, nzuh, lr, cu, cs, e2, hcs, _⟩ := Strat.eval_frame he
  have hq : s2.sol.hasCov = s.sol.hasCov := by rw [e2, e1]
  have hs2 : s2.p.sep = true := by rw [e2, e1]; exact hsep
  obtain ⟨t, tS, sol3, sol4, h1, _, h3, h4, h5⟩ := Strat.tell_ok ht
  obtain ⟨cu', su, cs', e3⟩ := Strat.rank_frame h1
  obtain ⟨c0, ck, cl, med, _, _, _, _, e4, _⟩ := Sol.updateBest_ok h3
  obtain ⟨sg', mx, mn, lv, le, e5⟩ := Strat.tellFinish_frame h5
  show s3.sol.hasCov = _
  rw [← hq, e5]
  show sol4.hasCov = _
  have h6 : sol3.hasCov = s2.sol.hasCov := by rw [e4, e3]
  have h7 : sol4.hasCov = sol3.hasCov := by
    unfold covarianceUpdate at h4
    split at h4
    · rw [if_pos hs2] at h4
      obtain ⟨_, _, csq, hb, _, _, rfl⟩ := covUpdateSep_ok h4
      rfl
    · rw [if_pos hs2] at h4
      obtain ⟨_, _, _, _, csq, hb, cm, _, _, _, rfl⟩ := acovUpdateSep_ok h4
      rfl
    · obtain ⟨_, _, _, _, _, hb, g, _, _, rfl⟩ := vdUpdate_ok h4
      rfl
  rw [h7, h6]

theorem generations_hasCov {env : Env n} {s s' : Strat n} (k : ℕ) (hsep : s.p.sep = true)
    (h : s.generations env k = .ok s') : s'.sol.hasCov = s.sol.hasCov := by
  induction k generalizing s with
  | zero => injection h with h; rw [h]
  | succ k ih =>
    obtain ⟨s1, h1, h2⟩ := Out.bind_eq_ok.1 h
    obtain ⟨tr, hr⟩ := Strat.generation_run h1
    rw [ih (by rw [(run_p hr).1]; exact hsep) h2, generation_hasCov hsep h1]

/-- Settings with which a run is without failure. -/
theorem ready_of {env : Env n} {kind : CovKind} {q : Params n} (hk : kind ≠ .vd) (h1 : Configured q) (h2 : StrictRates q)
    (h3 : q.vd = false) (h4 : q.lazyUpdate = false) (h5 : q.withGradient = false) (h6 : q.uh = false) (h7 : q.tpa ≠ 2)
    (h8 : q.gp = GenoPheno.plain) (h9 : q.stoppingCrit = []) (h10 : q.withEdm = false)
    (h11 : q.initialElitistOnRestart = false) : ∃ s, Strat.new env kind q = .ok s ∧ RunReady kind s := by
  have hu : UsualRun kind q := ⟨h1, h2, hk, h3, fun _ => h4, h5, h6, h7⟩
  obtain ⟨s, hs⟩ := new_plain (env := env) (kind := kind) h8 hu.configured.good.1
  refine ⟨s, hs, runReady_new hu.good hs ?_ h10 h11 ⟨by decide, ?_⟩ ?_ ?_⟩
  · show (q.stoppingCrit.map Prod.fst).Nodup; rw [h9]; simp
  · show ¬ _ ∈ q.stoppingCrit; rw [h9]; simp
  · intro x; rw [h8, phenoV_plain]; exact ⟨_, rfl⟩
  · intro x; rw [h8]; exact ⟨x, rfl⟩

/-- What the algorithm and the setters do not change. -/
theorem callAll_start {clock : ℕ} {l : List PyKw} {p q : Params n} (h : callAll clock l p = .ok q) :
    q.x0min = p.x0min ∧ q.x0max = p.x0max ∧ q.sigmaInit = p.sigmaInit ∧ q.lambda = p.lambda ∧ q.algo = p.algo := by
  induction l generalizing p with
  | nil => injection h with h; subst h; exact ⟨rfl, rfl, rfl, rfl, rfl⟩
  | cons kw l ih =>
    obtain ⟨p1, h1, h2⟩ := PyOut.bind_eq_ok.1 h
    obtain ⟨b1, b2, b3, b4, b5⟩ := ih h2
    rw [b1, b2, b3, b4, b5]
    cases kw <;> simp only [PyKw.call, Except.ok.injEq, reduceCtorEq] at h1 <;> subst h1 <;> exact ⟨rfl, rfl, rfl, rfl, rfl⟩

theorem setStrAlgo_start (p : Params n) (a : String) :
    (p.setStrAlgo a).x0min = p.x0min ∧ (p.setStrAlgo a).x0max = p.x0max ∧ (p.setStrAlgo a).sigmaInit = p.sigmaInit ∧
      (p.setStrAlgo a).lambda = p.lambda := by
  unfold Params.setStrAlgo
  cases mapFind Params.algoTable a <;> simp only <;> split_ifs <;> (try unfold Params.setVd) <;> (try split_ifs) <;>
    exact ⟨rfl, rfl, rfl, rfl⟩

/-- The four algorithms without restarts that are neither VD. -/
theorem setStrAlgo_single (p : Params n) {a : String} (ha : a ∈ ["cmaes", "acmaes", "sepcmaes", "sepacmaes"]) :
    ∃ c : ℤ, (c = 0 ∧ a = "cmaes" ∨ c = 3 ∧ a = "acmaes") ∧ p.setStrAlgo a = { p with algo := c } ∨
      (c = 6 ∧ a = "sepcmaes" ∨ c = 9 ∧ a = "sepacmaes") ∧ p.setStrAlgo a = { p.setSep with algo := c } := by
  simp only [List.mem_cons, List.not_mem_nil, or_false] at ha
  have f : ∀ a c, mapFind Params.algoTable a = some c → Params.contains a "vd" = false →
      p.setStrAlgo a = if Params.contains a "sep" then Params.setSep { p with algo := c } else { p with algo := c } := by
    intro a c h1 h2
    unfold Params.setStrAlgo
    rw [h1, h2]
    simp
  rcases ha with rfl | rfl | rfl | rfl
  · refine ⟨0, Or.inl ⟨Or.inl ⟨rfl, rfl⟩, ?_⟩⟩
    rw [f "cmaes" 0 (by decide) (by decide), if_neg (by decide)]
  · refine ⟨3, Or.inl ⟨Or.inr ⟨rfl, rfl⟩, ?_⟩⟩
    rw [f "acmaes" 3 (by decide) (by decide), if_neg (by decide)]
  · refine ⟨6, Or.inr ⟨Or.inl ⟨rfl, rfl⟩, ?_⟩⟩
    rw [f "sepcmaes" 6 (by decide) (by decide), if_pos (by decide)]; rfl
  · refine ⟨9, Or.inr ⟨Or.inr ⟨rfl, rfl⟩, ?_⟩⟩
    rw [f "sepacmaes" 9 (by decide) (by decide), if_pos (by decide)]; rfl

/-- The code of a documented name. -/
theorem documented_code {name : String} {c : CovKind} {r : RestartKind} {sep : Bool} (h : (name, c, r, sep) ∈ documented)
    (h1 : name ≠ "sepaipop") (h2 : name ≠ "sepabipop") :
    ∃ (a : ℤ) (l : Launch), mapFind Params.algoTable name = some a ∧ launch a = some l ∧ l.cov = c ∧ l.restart = r ∧
      (sep = true → 6 ≤ a ∧ a ≤ 11) ∧ (c = .vd → 12 ≤ a) := by
  simp only [documented, List.mem_cons, Prod.mk.injEq, List.not_mem_nil, or_false] at h
  rcases h with ⟨rfl, rfl, rfl, rfl⟩ | ⟨rfl, rfl, rfl, rfl⟩ | ⟨rfl, rfl, rfl, rfl⟩ |
    ⟨rfl, rfl, rfl, rfl⟩ | ⟨rfl, rfl, rfl, rfl⟩ | ⟨rfl, rfl, rfl, rfl⟩ | ⟨rfl, rfl, rfl, rfl⟩ |
    ⟨rfl, rfl, rfl, rfl⟩ | ⟨rfl, rfl, rfl, rfl⟩ | ⟨rfl, rfl, rfl, rfl⟩ | ⟨rfl, rfl, rfl, rfl⟩ |
    ⟨rfl, rfl, rfl, rfl⟩ | ⟨rfl, rfl, rfl, rfl⟩ | ⟨rfl, rfl, rfl, rfl⟩ | ⟨rfl, rfl, rfl, rfl⟩
  all_goals first | exact absurd rfl h1 | exact absurd rfl h2 | skip
  all_goals exact ⟨_, _, rfl, rfl, rfl, rfl, by decide, by decide⟩

end Libcmaes
