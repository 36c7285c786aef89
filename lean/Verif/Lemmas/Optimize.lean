import Verif.Lemmas.Run
import Verif.Lemmas.Best
import Verif.Model.Restart
import Verif.Lemmas.Good
import Verif.Lemmas.Init

/-! # Reasoning about whole runs and restarts -/

namespace Libcmaes

open Spec

variable {n : ℕ}

namespace Strat

theorem evalInitial_frame {env : Env n} {s s' : Strat n} (h : s.evalInitial env = .ok s') :
    s' = s ∨ ∃ y v, phenoV s.p.gp s.sol.xmean = .ok y ∧ v = env.f s.calls.length y ∧
      s' = { s with calls := s.calls ++ [(y, v)], nevals := s.nevals + 1
                    sol := { s.sol with
                      nevals := s.sol.nevals + 1
                      initialCand := some ⟨if s.negate then v.neg else v, s.sol.xmean, -1⟩
                      bestSeen := some ⟨if s.negate then v.neg else v, s.sol.xmean, -1⟩ } } := by
  unfold evalInitial at h
  split_ifs at h
  · obtain ⟨y, hy, h⟩ := Out.bind_eq_ok.1 h
    injection h with h
    exact Or.inr ⟨y, _, hy, rfl, h.symm⟩
  · injection h with h; exact Or.inl h.symm

theorem edm_frame {env : Env n} {s s' : Strat n} (h : s.edm env = .ok s') :
    ∃ c e, s' = { s with calls := s.calls ++ c, nevals := s.nevals + c.length
                         sol := { s.sol with nevals := s.sol.nevals + c.length, edm := e } } := by
  unfold edm at h
  simp only at h
  split_ifs at h
  all_goals
    obtain ⟨ph, _, h⟩ := Out.bind_eq_ok.1 h
    obtain ⟨⟨s1, g⟩, h1, h⟩ := Out.bind_eq_ok.1 h
    obtain ⟨gg, _, h⟩ := Out.bind_eq_ok.1 h
    obtain ⟨c, e1⟩ := gradf_frame h1
    simp only at h
  all_goals
    obtain ⟨nrm, _, h⟩ := Out.bind_eq_ok.1 h
    injection h with h
    exact ⟨c, _, by rw [← h, e1]⟩

theorem elitistRestart_ok {env : Env n} {s s' : Strat n} (h : s.elitistRestart env = .ok s') :
    ∃ b p sol, s.sol.bestSeen = some b ∧
      Sol.make { s.p with x0min := b.x, x0max := b.x } (env.rnd s.nrnd) (env.z 0) = .ok (p, sol) ∧
      s' = { s with initialElitist := true, p := p, sol := { sol with nevals := s.nevals }, niter := 0
                    nrnd := s.nrnd + 1, nz := if s.p.vd then 1 else s.nz } := by
  unfold elitistRestart at h
  cases hb : s.sol.bestSeen with
  | none => rw [hb] at h; cases h
  | some b =>
    rw [hb] at h
    obtain ⟨⟨p, sol⟩, h1, h⟩ := Out.bind_eq_ok.1 h
    injection h with h
    exact ⟨b, p, sol, rfl, h1, h.symm⟩

theorem resetSearchState_ok {env : Env n} {s s' : Strat n} (h : s.resetSearchState env = .ok s') :
    ∃ p sol, Sol.make s.p (env.rnd s.nrnd) (env.z 0) = .ok (p, sol) ∧
      s' = { s with p := p, sol := sol, niter := 0, nrnd := s.nrnd + 1
                    nz := if s.p.vd then 1 else s.nz } := by
  unfold resetSearchState at h
  obtain ⟨⟨p, sol⟩, h1, h⟩ := Out.bind_eq_ok.1 h
  injection h with h
  exact ⟨p, sol, h1, h.symm⟩

theorem lambdaInc_ok {s s' : Strat n} (h : s.lambdaInc = .ok s') :
    ∃ p, initializeParameters { s.p with lambda := s.p.lambda * 2 } = .ok p ∧ s' = { s with p := p } := by
  unfold lambdaInc at h
  obtain ⟨p, h1, h⟩ := Out.bind_eq_ok.1 h
  injection h with h
  exact ⟨p, h1, h.symm⟩

/-- One unfolding of `optimize`. -/
theorem optimize_succ_ok {env : Env n} {k : ℕ} {s s' : Strat n}
    (h : s.optimize env (k + 1) = .ok (some s')) :
    ∃ s0 s1 s2 b, s.evalInitial env = .ok s0 ∧ s0.loop env (k + 1) = .ok (some s1) ∧
      (if s1.p.withEdm then s1.edm env else pure s1) = .ok s2 ∧ s2.wantsRestart = .ok b ∧
      (b = true ∧ (∃ s3, s2.elitistRestart env = .ok s3 ∧ s3.optimize env k = .ok (some s')) ∨
       b = false ∧ s' = s2) := by
  unfold optimize at h
  obtain ⟨s0, h0, h⟩ := Out.bind_eq_ok.1 h
  obtain ⟨o, h1, h⟩ := Out.bind_eq_ok.1 h
  cases o with
  | none => cases h
  | some s1 =>
    replace h : ((if s1.p.withEdm then s1.edm env else pure s1) >>= fun s2 => s2.wantsRestart >>= fun b =>
      if b then s2.elitistRestart env >>= fun s3 => s3.optimize env k else pure (some s2)) = _ := h
    obtain ⟨s2, h2, h⟩ := Out.bind_eq_ok.1 h
    obtain ⟨b, h3, h⟩ := Out.bind_eq_ok.1 h
    refine ⟨s0, s1, s2, b, h0, h1, h2, h3, ?_⟩
    cases b with
    | true =>
      rw [if_pos rfl] at h
      obtain ⟨s3, h4, h⟩ := Out.bind_eq_ok.1 h
      exact Or.inl ⟨rfl, s3, h4, h⟩
    | false =>
      injection h with h; injection h with h
      exact Or.inr ⟨rfl, h.symm⟩

theorem loop_induct {env : Env n} {I : Strat n → Prop}
    (hstop : ∀ s b s', I s → s.stop env = .ok (b, s') → I s')
    (hgen : ∀ s s', I s → s.generation env = .ok s' → I s') (k : ℕ) {s s' : Strat n} (hI : I s)
    (h : s.loop env k = .ok (some s')) : I s' := by
  induction k generalizing s with
  | zero => cases h
  | succ k ih =>
    unfold loop at h
    obtain ⟨⟨b, s1⟩, h1, h⟩ := Out.bind_eq_ok.1 h
    simp only at h
    have i1 := hstop _ _ _ hI h1
    cases b with
    | true => injection h with h; injection h with h; exact h ▸ i1
    | false =>
      rw [if_neg (by simp)] at h
      obtain ⟨s2, h2, h⟩ := Out.bind_eq_ok.1 h
      exact ih (hgen _ _ i1 h2) h

/-- What holds at the start of a run and is kept by each of its parts holds at the end. -/
theorem optimize_induct_gen {env : Env n} {I : Strat n → Prop}
    (hinit : ∀ s s', I s → s.evalInitial env = .ok s' → I s')
    (hstop : ∀ s b s', I s → s.stop env = .ok (b, s') → I s')
    (hgen : ∀ s s', I s → s.generation env = .ok s' → I s')
    (hedm : ∀ s s', I s → s.p.withEdm = true → s.edm env = .ok s' → I s')
    (hre : ∀ s s', I s → s.elitistRestart env = .ok s' → I s') (k : ℕ) {s s' : Strat n} (hI : I s)
    (h : s.optimize env k = .ok (some s')) : I s' := by
  induction k generalizing s with
  | zero => cases h
  | succ k ih =>
    obtain ⟨s0, s1, s2, b, h0, h1, h2, h3, h4⟩ := optimize_succ_ok h
    have i1 := loop_induct hstop hgen _ (hinit _ _ hI h0) h1
    have i2 : I s2 := by
      split_ifs at h2 with he
      · exact hedm _ _ i1 he h2
      · injection h2 with h2; exact h2 ▸ i1
    rcases h4 with ⟨_, s3, h5, h6⟩ | ⟨_, rfl⟩
    · exact ih (hre _ _ i2 h5) h6
    · exact i2

/-- The same, with whole executions in place of turns. -/
theorem optimize_induct {env : Env n} {I : Strat n → Prop}
    (hinit : ∀ s s', I s → s.evalInitial env = .ok s' → I s')
    (hrun : ∀ s tr s', I s → AskRun env s tr s' → I s')
    (hedm : ∀ s s', I s → s.edm env = .ok s' → I s')
    (hre : ∀ s s', I s → s.elitistRestart env = .ok s' → I s') (k : ℕ) {s s' : Strat n} (hI : I s)
    (h : s.optimize env k = .ok (some s')) : I s' := by
  induction k generalizing s with
  | zero => cases h
  | succ k ih =>
    obtain ⟨s0, s1, s2, b, h0, h1, h2, h3, h4⟩ := optimize_succ_ok h
    obtain ⟨tr, h1'⟩ := loop_askRun _ h1
    have i1 := hrun _ _ _ (hinit _ _ hI h0) h1'
    have i2 : I s2 := by
      split_ifs at h2
      · exact hedm _ _ i1 h2
      · injection h2 with h2; exact h2 ▸ i1
    rcases h4 with ⟨_, s3, h5, h6⟩ | ⟨_, rfl⟩
    · exact ih (hre _ _ i2 h5) h6
    · exact i2

/-- The same for the restarts of IPOP. -/
theorem ipopLoop_induct {env : Env n} {fuel : ℕ} {I : Strat n → Prop}
    (hopt : ∀ s s', I s → s.optimize env fuel = .ok (some s') → I s')
    (hinc : ∀ s s', I s → s.lambdaInc = .ok s' → I s')
    (hreset : ∀ s s', I s → s.resetSearchState env = .ok s' → I s') (r : ℕ) {s s' : Strat n}
    {b b' : Option (Sol n)} (hI : I s) (h : s.ipopLoop env fuel r b = .ok (some (s', b'))) : I s' := by
  induction r generalizing s b with
  | zero =>
    injection h with h; injection h with h; injection h with h _
    exact h ▸ hI
  | succ r ih =>
    unfold ipopLoop at h
    obtain ⟨o, h1, h⟩ := Out.bind_eq_ok.1 h
    cases o with
    | none => cases h
    | some s1 =>
      replace h : (s1.lambdaInc >>= fun s2 => s2.resetSearchState env >>= fun s3 =>
        if s3.budgetSpent then pure (some (s3, s1.captureBest b))
        else ipopLoop env fuel r s3 (s1.captureBest b)) = _ := h
      obtain ⟨s2, h2, h⟩ := Out.bind_eq_ok.1 h
      obtain ⟨s3, h3, h⟩ := Out.bind_eq_ok.1 h
      have i3 := hreset _ _ (hinc _ _ (hopt _ _ hI h1) h2) h3
      split_ifs at h
      · injection h with h; injection h with h; injection h with h _
        exact h ▸ i3
      · exact ih i3 h

/-- The same with different assertions before a run (`I`), after it (`J`), and between the increase of the
population and the reset (`K`). -/
theorem ipopLoop_induct₂ {env : Env n} {fuel : ℕ} {I J K : Strat n → Prop}
    (hopt : ∀ s s', I s → s.optimize env fuel = .ok (some s') → J s')
    (hinc : ∀ s s', J s → s.lambdaInc = .ok s' → K s')
    (hreset : ∀ s s', K s → s.resetSearchState env = .ok s' → I s') (r : ℕ) {s s' : Strat n}
    {b b' : Option (Sol n)} (hI : I s) (h : s.ipopLoop env fuel r b = .ok (some (s', b'))) : I s' := by
  induction r generalizing s b with
  | zero =>
    injection h with h; injection h with h; injection h with h _
    exact h ▸ hI
  | succ r ih =>
    unfold ipopLoop at h
    obtain ⟨o, h1, h⟩ := Out.bind_eq_ok.1 h
    cases o with
    | none => cases h
    | some s1 =>
      replace h : (s1.lambdaInc >>= fun s2 => s2.resetSearchState env >>= fun s3 =>
        if s3.budgetSpent then pure (some (s3, s1.captureBest b))
        else ipopLoop env fuel r s3 (s1.captureBest b)) = _ := h
      obtain ⟨s2, h2, h⟩ := Out.bind_eq_ok.1 h
      obtain ⟨s3, h3, h⟩ := Out.bind_eq_ok.1 h
      have i3 := hreset _ _ (hinc _ _ (hopt _ _ hI h1) h2) h3
      split_ifs at h
      · injection h with h; injection h with h; injection h with h _
        exact h ▸ i3
      · exact ih i3 h

end Strat

namespace Bipop

theorem smallRun_ok {env : Env n} {fuel : ℕ} {l l' : Loop n} (h : smallRun env fuel l = .ok (some l')) :
    ∃ b1 s3 s4, l.b.r2 env = .ok b1 ∧ (b1.setMaxFevals (l.budget0 / 2)).s.resetSearchState env = .ok s3 ∧
      s3.optimize env fuel = .ok (some s4) ∧
      l' = ⟨{ b1.setMaxFevals (l.budget0 / 2) with s := s4 }, l.budget0, l.budget1 + charge s4,
        s4.captureBest l.best⟩ := by
  unfold smallRun at h
  obtain ⟨b1, h1, h⟩ := Out.bind_eq_ok.1 h
  obtain ⟨s3, h2, h⟩ := Out.bind_eq_ok.1 h
  obtain ⟨o, h3, h⟩ := Out.bind_eq_ok.1 h
  cases o with
  | none => cases h
  | some s4 =>
    injection h with h; injection h with h
    exact ⟨b1, s3, s4, h1, h2, h3, h.symm⟩

theorem largeRun_ok {env : Env n} {fuel r : ℕ} {l l' : Loop n}
    (h : largeRun env fuel r l = .ok (some l')) :
    ∃ b1 m s4, (r = 0 ∧ b1 = l.b ∨ 0 < r ∧ ∃ b0 s, l.b.r1 = .ok b0 ∧ b0.s.resetSearchState env = .ok s ∧
        b1 = { b0 with s := s }) ∧
      b1.maxFevals0 = some m ∧ (b1.setMaxFevals m).s.optimize env fuel = .ok (some s4) ∧
      l' = ⟨{ b1.setMaxFevals m with s := s4 }, l.budget0 + charge s4, l.budget1, s4.captureBest l.best⟩ := by
  unfold largeRun at h
  obtain ⟨b1, h1, h⟩ := Out.bind_eq_ok.1 h
  cases hm : b1.maxFevals0 with
  | none => rw [hm] at h; cases h
  | some m =>
    rw [hm] at h
    simp only at h
    obtain ⟨o, h3, h⟩ := Out.bind_eq_ok.1 h
    cases o with
    | none => cases h
    | some s4 =>
      injection h with h; injection h with h
      refine ⟨b1, m, s4, ?_, hm, h3, h.symm⟩
      split_ifs at h1 with hr
      · obtain ⟨b0, h4, h1⟩ := Out.bind_eq_ok.1 h1
        obtain ⟨s, h5, h1⟩ := Out.bind_eq_ok.1 h1
        injection h1 with h1
        exact Or.inr ⟨hr, b0, s, h4, h5, h1.symm⟩
      · injection h1 with h1
        exact Or.inl ⟨by omega, h1.symm⟩

/-- What is kept by each kind of run is kept by the inner loop. -/
theorem smallLoop_induct {env : Env n} {fuel : ℕ} {I : Loop n → Prop}
    (hs : ∀ l l', I l → l.budget0 > l.budget1 → smallRun env fuel l = .ok (some l') → I l') (k : ℕ)
    {l l' : Loop n} (hI : I l) (h : smallLoop env fuel k l = .ok (some l')) :
    I l' ∧ l'.budget0 ≤ l'.budget1 := by
  induction k generalizing l with
  | zero =>
    unfold smallLoop at h
    split_ifs at h with hb
    · cases h
    · injection h with h; injection h with h; subst h; exact ⟨hI, by omega⟩
  | succ k ih =>
    unfold smallLoop at h
    split_ifs at h with hb
    · obtain ⟨o, h1, h⟩ := Out.bind_eq_ok.1 h
      cases o with
      | none => cases h
      | some l1 => exact ih (hs _ _ hI hb h1) h
    · injection h with h; injection h with h; subst h; exact ⟨hI, by omega⟩

theorem outer_induct {env : Env n} {fuel : ℕ} {I : Loop n → Prop}
    (hs : ∀ l l', I l → l.budget0 > l.budget1 → smallRun env fuel l = .ok (some l') → I l')
    (hl : ∀ r l l', I l → l.budget0 ≤ l.budget1 → largeRun env fuel r l = .ok (some l') → I l') (k r : ℕ)
    {l l' : Loop n} (hI : I l) (h : outer env fuel k r l = .ok (some l')) : I l' := by
  induction k generalizing l r with
  | zero => injection h with h; injection h with h; exact h ▸ hI
  | succ k ih =>
    unfold outer at h
    obtain ⟨o, h1, h⟩ := Out.bind_eq_ok.1 h
    cases o with
    | none => cases h
    | some l1 =>
      obtain ⟨i1, hb⟩ := smallLoop_induct hs _ hI h1
      obtain ⟨o, h2, h⟩ := Out.bind_eq_ok.1 h
      cases o with
      | none => cases h
      | some l2 => exact ih _ (hl _ _ _ i1 hb h2) h

/-- The ways in which the restart strategies change the parameters between runs. -/
inductive ParamStep : Params n → Params n → Prop
  | init {p q} (lam : ℕ) (sg : ℝ) :
      initializeParameters { p with lambda := lam, sigmaInit := sg } = .ok q → ParamStep p q
  | sigma {p} (sg : ℝ) : ParamStep p { p with sigmaInit := sg }
  | budget {p} (m : ℤ) : ParamStep p { p with maxFevals := m }
  | pop {p} : ParamStep p { p with mu := p.lambda / 2 }

theorem ParamStep.frame {p q : Params n} (h : ParamStep p q) :
    ∃ lam sg mf mu w muw cs cc c1 cm ds fs fc ch lv rl al, q = { p with
      lambda := lam, sigmaInit := sg, maxFevals := mf, mu := mu, weights := w, muw := muw, csigma := cs
      cc := cc, c1 := c1, cmu := cm, dsigma := ds
      factPs := fs, factPc := fc, chi := ch, lazyValue := lv, rlambda := rl, alphathuh := al } := by
  cases h with
  | init lam sg h =>
    obtain ⟨mu, w, muw, cs, cc, c1, cm, ds, fs, fc, ch, lv, rl, al, e⟩ := initializeParameters_frame h
    exact ⟨_, _, _, _, _, _, _, _, _, _, _, _, _, _, _, _, _, e⟩
  | sigma sg => exact ⟨_, _, _, _, _, _, _, _, _, _, _, _, _, _, _, _, _, rfl⟩
  | budget m => exact ⟨_, _, _, _, _, _, _, _, _, _, _, _, _, _, _, _, _, rfl⟩
  | pop => exact ⟨_, _, _, _, _, _, _, _, _, _, _, _, _, _, _, _, _, rfl⟩

theorem r1_ok {b b' : Bipop n} (h : b.r1 = .ok b') :
    ∃ p sg, initializeParameters { b.s.p with lambda := b.lambdaL * 2 } = .ok p ∧ b.sigmaInit0 = some sg ∧
      b' = { b with s := { b.s with p := { p with sigmaInit := sg } }, lambdaL := p.lambda } := by
  unfold r1 at h
  obtain ⟨s, h1, h⟩ := Out.bind_eq_ok.1 h
  obtain ⟨p, h2, e⟩ := Strat.lambdaInc_ok h1
  cases hs : b.sigmaInit0 with
  | none => rw [hs] at h; cases h
  | some sg =>
    rw [hs] at h
    injection h with h
    subst e
    exact ⟨p, sg, h2, rfl, h.symm⟩

theorem r2_ok {env : Env n} {b b' : Bipop n} (h : b.r2 env = .ok b') :
    ∃ p, initializeParameters { b.s.p with
        lambda := smallLambda b.lambdaDef b.lambdaL (env.ub b.nub)
        sigmaInit := 2 * (10 : ℝ) ^ (-2 * env.ub (b.nub + 1)) } = .ok p ∧
      b' = { b with s := { b.s with p := p }, nub := b.nub + 2 } := by
  unfold r2 at h
  obtain ⟨p, h2, h⟩ := Out.bind_eq_ok.1 h
  injection h with h
  exact ⟨p, h2, h.symm⟩

/-- What holds when the BIPOP search is started and is kept by each run, by each reset and by each change
of parameters holds at the end. -/
theorem optimize_induct {env : Env n} {fuel : ℕ} {I : Strat n → Prop}
    (hopt : ∀ s s', I s → s.optimize env fuel = .ok (some s') → I s')
    (hpar : ∀ s q, I s → ParamStep s.p q → I { s with p := q })
    (hreset : ∀ s s', I s → s.resetSearchState env = .ok s' → I s') {b : Bipop n} {l : Loop n}
    (hI : I b.s) (h : b.optimize env fuel = .ok (some l)) : I l.b.s := by
  refine outer_induct (I := fun l => I l.b.s) ?_ ?_ _ _ hI h
  · intro l l' hi _ h
    obtain ⟨b1, s3, s4, h1, h2, h3, e⟩ := smallRun_ok h
    obtain ⟨p, h4, e4⟩ := r2_ok h1
    have i1 : I b1.s := by rw [e4]; exact hpar _ _ hi (.init _ _ h4)
    have i2 : I (b1.setMaxFevals (l.budget0 / 2)).s := hpar _ _ i1 (.budget _)
    rw [e]
    exact hopt _ _ (hreset _ _ i2 h2) h3
  · intro r l l' hi _ h
    obtain ⟨b1, m, s4, h1, _, h3, e⟩ := largeRun_ok h
    have i1 : I b1.s := by
      rcases h1 with ⟨_, e⟩ | ⟨_, b0, s, h4, h5, e⟩
      · rw [e]; exact hi
      · obtain ⟨p, sg, h6, _, e6⟩ := r1_ok h4
        rw [e]
        refine hreset _ _ ?_ h5
        rw [e6]
        exact hpar { l.b.s with p := p } _ (hpar _ _ hi (.init _ _ h6)) (.sigma sg)
    rw [e]
    exact hopt _ _ (hpar _ _ i1 (.budget m)) h3

/-- The same with different assertions before a run (`I`) and after it (`J`). -/
theorem optimize_induct₂ {env : Env n} {fuel : ℕ} {I J : Strat n → Prop} (hIJ : ∀ s, I s → J s)
    (hopt : ∀ s s', I s → s.optimize env fuel = .ok (some s') → J s')
    (hpar : ∀ s q, J s → ParamStep s.p q → J { s with p := q })
    (hbud : ∀ s m, I s → I { s with p := { s.p with maxFevals := m } })
    (hreset : ∀ s s', J s → s.resetSearchState env = .ok s' → I s') {b : Bipop n} {l : Loop n}
    (hI : I b.s) (h : b.optimize env fuel = .ok (some l)) : J l.b.s := by
  have hs : ∀ l l' : Loop n, J l.b.s → l.budget0 > l.budget1 → smallRun env fuel l = .ok (some l') →
      J l'.b.s := by
    intro l l' hi _ h
    obtain ⟨b1, s3, s4, h1, h2, h3, e⟩ := smallRun_ok h
    obtain ⟨p, h4, e4⟩ := r2_ok h1
    have i1 : J b1.s := by rw [e4]; exact hpar _ _ hi (.init _ _ h4)
    have i2 : J (b1.setMaxFevals (l.budget0 / 2)).s := hpar _ _ i1 (.budget _)
    rw [e]
    exact hopt _ _ (hreset _ _ i2 h2) h3
  have hl : ∀ (r : ℕ) (l l' : Loop n), (r = 0 → I l.b.s) → J l.b.s → largeRun env fuel r l = .ok (some l') →
      J l'.b.s := by
    intro r l l' h0 hi h
    obtain ⟨b1, m, s4, h1, _, h3, e⟩ := largeRun_ok h
    have i1 : I b1.s := by
      rcases h1 with ⟨hr, e⟩ | ⟨_, b0, s, h4, h5, e⟩
      · rw [e]; exact h0 hr
      · obtain ⟨p, sg, h6, _, e6⟩ := r1_ok h4
        rw [e]
        refine hreset _ _ ?_ h5
        rw [e6]
        exact hpar { l.b.s with p := p } _ (hpar _ _ hi (.init _ _ h6)) (.sigma sg)
    rw [e]
    exact hopt _ _ (hbud _ m i1) h3
  have ho : ∀ (k r : ℕ) (l l' : Loop n), 0 < r → J l.b.s → outer env fuel k r l = .ok (some l') → J l'.b.s := by
    intro k
    induction k with
    | zero => intro r l l' _ hJ h; injection h with h; injection h with h; exact h ▸ hJ
    | succ k ih =>
      intro r l l' hr hJ h
      unfold outer at h
      obtain ⟨o, h1, h⟩ := Out.bind_eq_ok.1 h
      cases o with
      | none => cases h
      | some l1 =>
        obtain ⟨i1, hb⟩ := smallLoop_induct (I := fun l => J l.b.s) hs _ hJ h1
        obtain ⟨o, h2, h⟩ := Out.bind_eq_ok.1 h
        cases o with
        | none => cases h
        | some l2 => exact ih _ _ _ (by omega) (hl _ _ _ (by omega) i1 h2) h
  unfold optimize at h
  cases hk : b.s.p.nrestarts with
  | zero =>
    rw [hk] at h
    injection h with h; injection h with h
    rw [← h]
    exact hIJ _ hI
  | succ k =>
    rw [hk] at h
    unfold outer at h
    obtain ⟨o, h1, h⟩ := Out.bind_eq_ok.1 h
    have h1' : o = some ⟨b, 0, 0, none⟩ := by
      unfold smallLoop at h1
      cases fuel <;> simp at h1 <;> exact h1.symm
    subst h1'
    obtain ⟨o, h2, h⟩ := Out.bind_eq_ok.1 h
    cases o with
    | none => cases h
    | some l2 => exact ho _ _ _ _ (by omega) (hl _ _ _ (fun _ => hI) (hIJ _ hI) h2) h

/-- The constructor: a strategy is made, its population size set, and its search state reset. -/
theorem new_ok {env : Env n} {kind : CovKind} {p : Params n} {b : Bipop n} (h : Bipop.new env kind p = .ok b) :
    ∃ s, Strat.new env kind p = .ok s ∧
      ({ s with p := { s.p with mu := s.p.lambda / 2 } } : Strat n).resetSearchState env = .ok b.s ∧
      b.lambdaDef = p.lambda ∧ b.lambdaL = p.lambda ∧ b.sigmaInit0 = some p.sigmaInit ∧
      b.maxFevals0 = some p.maxFevals ∧ b.nub = 0 := by
  unfold new at h
  obtain ⟨s, h1, h⟩ := Out.bind_eq_ok.1 h
  obtain ⟨⟨p2, sol⟩, h2, h⟩ := Out.bind_eq_ok.1 h
  injection h with h
  have hl : p.lambda = s.p.lambda := by rw [(Strat.new_ok h1).2.2.2.1]
  refine ⟨s, h1, ?_, by rw [← h], by rw [← h], by rw [← h], by rw [← h], by rw [← h]⟩
  rw [hl] at h2
  unfold Strat.resetSearchState
  have h2' : Sol.make { s.p with mu := s.p.lambda / 2 } (env.rnd s.nrnd) (env.z 0) = .ok (p2, sol) := h2
  rw [h2', Out.ok_bind, ← h]
  simp only
  rw [← (Strat.new_ok h1).2.2.2.2.2.2.1]
  rfl

end Bipop

end Libcmaes
