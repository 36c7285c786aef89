import Verif.Props.Lazy
import Verif.Lemmas.Luck
import Verif.Lemmas.Witness

/-!
A search with the active update and the lazy update, on the squared distance to its starting point, with draws that
repeat: in each generation of the first period the worst candidates are in the same direction.
-/

namespace Libcmaes

open Spec Matrix Finset

variable {n : ℕ}

/-! ### The decomposition of the identity and of a matrix of rank one -/

theorem eig_one (eig : EigSolver n) (i : Fin n) : (eig.solve 1).1 i = 1 := by
  have h1 := eig.decomp 1 isSymm_one
  have h2 := eig.orth' 1 isSymm_one
  have h3 : diagonal (eig.solve 1).1 = (1 : Mat n) := by
    calc diagonal (eig.solve 1).1
        = ((eig.solve 1).2ᵀ * (eig.solve 1).2) * diagonal (eig.solve 1).1 * ((eig.solve 1).2ᵀ * (eig.solve 1).2) := by
          rw [h2, Matrix.one_mul, Matrix.mul_one]
      _ = (eig.solve 1).2ᵀ * ((eig.solve 1).2 * diagonal (eig.solve 1).1 * (eig.solve 1).2ᵀ) * (eig.solve 1).2 := by
          simp only [Matrix.mul_assoc]
      _ = 1 := by rw [h1, Matrix.mul_one, h2]
  have := congrFun (congrFun h3 i) i
  rwa [diagonal_apply_eq, one_apply_eq] at this

theorem inverseSqrt_one (eig : EigSolver n) : inverseSqrt (eig.solve 1) = .ok 1 := by
  unfold inverseSqrt
  rw [if_pos fun i => by rw [eig_one]; exact one_pos]
  have : (fun i => 1 / Real.sqrt ((eig.solve 1).1 i)) = fun _ => (1 : ℝ) := by
    funext i; rw [eig_one]; simp
  rw [this, diagonal_one, Matrix.mul_one, eig.orth 1 isSymm_one]

/-- The square root used for sampling, for the identity. -/
noncomputable def rootOne (eig : EigSolver n) : Mat n :=
  (eig.solve 1).2 * diagonal fun i => Real.sqrt (max ((eig.solve 1).1 i) 0)

theorem rootOne_mul (eig : EigSolver n) : rootOne eig * (rootOne eig)ᵀ = 1 := by
  have : (fun i => Real.sqrt (max ((eig.solve 1).1 i) 0)) = fun _ => (1 : ℝ) := by
    funext i; rw [eig_one]; simp
  unfold rootOne
  rw [this, diagonal_one, Matrix.mul_one, eig.orth 1 isSymm_one]

theorem max_rank_one (hn : 1 ≤ n) (eig : EigSolver n) (v : Vec n) :
    maxCoeff (eig.solve (vecMulVec v v)).1 = v ⬝ᵥ v := by
  have hs := isSymm_vecMulVec v
  have : NeZero n := ⟨by omega⟩
  refine le_antisymm (maxCoeff_le fun i => ?_) ?_
  · rw [← (quad_eigvec eig hs i).1, quad_vecMulVec]
    set w := (eig.solve (vecMulVec v v)).2.mulVec (Pi.single i 1) with hw
    have hww : w ⬝ᵥ w = 1 := by
      rw [dot_eig eig hs, hw, mulVec_mulVec, eig.orth' _ hs, one_mulVec, sum_eq_single i]
      · simp
      · intro j _ hj; simp [hj]
      · simp
    have := Finset.sum_mul_sq_le_sq_mul_sq univ v w
    have e1 : ∑ i, v i ^ 2 = v ⬝ᵥ v := by unfold dotProduct; exact sum_congr rfl fun i _ => pow_two _
    have e2 : ∑ i, w i ^ 2 = w ⬝ᵥ w := by unfold dotProduct; exact sum_congr rfl fun i _ => pow_two _
    rw [e1, e2, hww, mul_one] at this
    exact this
  · have h := quad_le_maxCoeff eig hs v
    rw [quad_vecMulVec] at h
    by_cases hv : v ⬝ᵥ v = 0
    · rw [hv]
      have : v = 0 := dotProduct_self_eq_zero.1 hv
      subst this
      have h2 := (quad_eigvec eig hs ⟨0, by omega⟩).1
      rw [quad_vecMulVec, zero_dotProduct] at h2
      calc (0 : ℝ) = _ := by rw [← h2]; ring
        _ ≤ _ := le_maxCoeff _ _
    · have h0 : 0 < v ⬝ᵥ v := lt_of_le_of_ne (by
        unfold dotProduct; exact sum_nonneg fun i _ => mul_self_nonneg _) (Ne.symm hv)
      rw [pow_two] at h
      exact le_of_mul_le_mul_right h h0

/-! ### The recursion of a variance -/

/-- The variance in the repeated direction after `g` generations. -/
noncomputable def varAfter (a d : ℝ) (g : ℕ) : ℝ := (fun c => a * c - d)^[g] 1

theorem varAfter_succ (a d : ℝ) (g : ℕ) : varAfter a d (g + 1) = a * varAfter a d g - d := by
  unfold varAfter; rw [Function.iterate_succ_apply']

theorem varAfter_neg {a b : ℝ} (ha : 0 < a) (hab : a ≤ b) (hb : b ≤ 1) (g : ℕ) (hg : 3 ≤ g) :
    varAfter a (0.34 * b) g < 0 := by
  induction g, hg using Nat.le_induction with
  | base =>
    rw [varAfter_succ, varAfter_succ, varAfter_succ]
    show a * (a * (a * 1 - _) - _) - _ < 0
    have ha1 : a ≤ 1 := hab.trans hb
    have h1 : a * (0.66 * a ^ 2 - 0.34 * a - 0.34) < 0 := by
      have : 0.66 * a ^ 2 - 0.34 * a - 0.34 < 0 := by nlinarith
      exact mul_neg_of_pos_of_neg ha this
    have h2 : a * (0.34 * (a ^ 2 + a + 1)) ≤ b * (0.34 * (a ^ 2 + a + 1)) :=
      mul_le_mul_of_nonneg_right hab (by positivity)
    nlinarith
  | succ g _ ih =>
    rw [varAfter_succ]
    have : a * varAfter a (0.34 * b) g < 0 := mul_neg_of_pos_of_neg ha ih
    nlinarith

/-! ### Failure of a turn -/

theorem Strat.generations_error {env : Env n} (k : ℕ) {s t : Strat n} {e : Err} (h : s.generations env k = .ok t)
    (h' : t.generation env = .error e) : s.generations env (k + 1) = .error e := by
  induction k generalizing s with
  | zero =>
    injection h with h
    subst h
    unfold generations
    rw [h']; rfl
  | succ k ih =>
    unfold generations at h
    obtain ⟨s2, h1, h⟩ := Out.bind_eq_ok.1 h
    unfold generations
    rw [h1]
    exact ih h

/-- The active update stops being defined when the decomposed covariance has an eigenvalue that is not positive. -/
theorem tell_notReal {env : Env n} {s : Strat n} (hg : GoodParams s.p) (hk : s.kind = .active)
    (hsep : s.p.sep = false) (huh : s.p.uh = false) (htpa : s.p.tpa ≠ 2) (hpaths : s.sol.pathsOk = true)
    (hsig : 0 < s.sol.sigma) (hc : s.sol.cands.length = s.p.lambda) (hkc : s.sol.kcand < s.p.lambda)
    (hcov : s.sol.hasCov = true) (hcsq : csqinvOf s.es s.sol = .error .notReal)
    (hsw : StrictWeakOn candLt s.sol.cands) : s.tell env = .error .notReal := by
  obtain ⟨cs, hcs⟩ : ∃ cs, stableSort candLt s.sol.cands = .ok cs := by
    unfold stableSort; rw [if_pos hsw]; exact ⟨_, rfl⟩
  have hperm := (stableSort_eq_ok hcs).2.perm
  have hlen : cs.length = s.p.lambda := by rw [hperm.length_eq, hc]
  have hr : s.rank env = .ok { s with sol := { s.sol with cands := cs } } := by
    unfold Strat.rank
    rw [if_neg (by simp [huh])]
    unfold Sol.sortCandidates
    rw [hcs]; rfl
  obtain ⟨sol3, h3⟩ := Strat.updateBest_total (s := { s.sol with cands := cs }) (by simp only; omega)
  obtain ⟨c0, ck, cl, med, _, _, _, _, e3, _⟩ := Sol.updateBest_ok h3
  have h4 : covarianceUpdate env.eig s.kind s.p s.es sol3 = .error .notReal := by
    have hpre := Strat.updatePre_total (s := sol3) hg (by rw [e3]; exact hlen) (by rw [e3]; exact hpaths) (by rw [e3]; exact hsig)
    unfold covarianceUpdate
    rw [hk]
    simp only
    rw [if_neg (by simp [hsep])]
    unfold acovUpdateFull
    rw [hpre, Out.ok_bind, if_neg (by rw [e3]; simp [hcov]), if_neg (by
      rw [e3]; have := hg.mu; show ¬ (cs.length < s.p.lambda ∨ _); omega)]
    have : csqinvOf s.es sol3 = .error .notReal := by rw [e3]; exact hcsq
    rw [this]; rfl
  unfold Strat.tell
  rw [hr, Out.ok_bind, if_neg (by rintro ⟨h, _⟩; exact htpa h)]
  show (Sol.updateBest { s.sol with cands := cs } >>= _) = _
  rw [h3, Out.ok_bind]
  show (covarianceUpdate env.eig s.kind s.p s.es sol3 >>= _) = _
  rw [h4]; rfl

/-! ### The search -/

/-- The state after `g` generations: the mean has not moved, the path is zero, and the variance along `i0` is known. -/
structure Pulled (env : Env n) (s0 : Strat n) (i0 : Fin n) (a d : ℝ) (g : ℕ) (s : Strat n) : Prop where
  run : s0.generations env g = .ok s
  mean : s.sol.xmean = s0.sol.xmean
  pc : s.sol.pc = 0
  sigma : 0 < s.sol.sigma
  cov : s.sol.hasCov = true
  paths : s.sol.pathsOk = true
  csq : g ≠ 0 → s.sol.hasCsq = true ∧ s.sol.csqinv = 1
  eig : g ≠ 0 → s.es.eig.isSome = true
  symm : s.sol.cov.IsSymm
  var : s.sol.cov i0 i0 = varAfter a d g

/-- What is known of every state of the search. -/
structure Along (p : Params n) (s0 s : Strat n) (g : ℕ) : Prop where
  par : s.p = { p with sigmaInit := s0.sol.sigma }
  good : GoodParams s.p
  strict : StrictRates s.p
  kind : s.kind = .active
  niter : s.niter = g
  negate : s.negate = false
  cands : s.sol.cands.length = s.p.lambda
  kcand : s.sol.kcand < s.p.lambda
  nz : s.nz = g * p.lambda

theorem along {env : Env n} {p : Params n} {s0 s : Strat n} (hp : LazyActive p)
    (h0 : Strat.new env .active p = .ok s0) {g : ℕ} (h : s0.generations env g = .ok s) : Along p s0 s g := by
  obtain ⟨_, _, hk, hp0, _, hfr, hn, _, _, hneg, _, _, _, _, _, hkc, _⟩ := Strat.new_ok h0
  obtain ⟨tr, hl, hr⟩ := Strat.generations_run g h
  obtain ⟨r1, r2, _, r4, _, r6, _, r8, _⟩ := run_p hr
  have hps := r1.trans hp0
  have hg0 : GoodParams s0.p := by rw [hp0]; exact hp.configured.with_sigmaInit _
  have hnz : s0.nz = 0 := by
    unfold Strat.new at h0
    obtain ⟨⟨p', sol⟩, hm, h0⟩ := Out.bind_eq_ok.1 h0
    injection h0 with h0; rw [← h0]
  refine ⟨hps, by rw [r1]; exact hg0, ?_, by rw [r6, hk], by rw [r4, hn, hl, zero_add], by rw [r8, hneg, hp.min], ?_, ?_, ?_⟩
  · rw [hps]; exact ⟨hp.strict.lt_one, hp.strict.active⟩
  · rw [generations_cands hg0 (by rw [hfr.cands, hp0]) g h, hp0, hps]
  · rw [r2, hkc, hps]; exact kcandOf_lt (by have := hg0.lambda; rw [hp0] at this; exact this)
  · rw [generations_nz (by rw [hp0]; exact hp.grad) (by rw [hp0]; exact hp.tpa) g h, hnz, zero_add, hp0]

/-- `ask` in the first period and at the start of the second. -/
theorem Pulled.ask {env : Env n} {p : Params n} {s0 s : Strat n} {i0 : Fin n} {a d : ℝ} {g : ℕ} (hp : LazyActive p)
    (h0 : Strat.new env .active p = .ok s0) (h : Pulled env s0 i0 a d g s) :
    ∃ pop s1, s.ask env = .ok (pop, s1) ∧ pop.length = p.lambda ∧
      s1.sol.updatedEigen = decide (g % lazyPeriod p = 0) ∧
      (∃ u, s0.generations env (periodStart (lazyPeriod p) g) = .ok u ∧ s1.es.eig = some (env.eig.solve u.sol.cov)) ∧
      (g < lazyPeriod p → ∀ j < p.lambda,
        pop[j]? = some fun l => s0.sol.xmean l + s.sol.sigma * (rootOne env.eig).mulVec (env.z (g * p.lambda + j)) l) := by
  have hA := along hp h0 h.run
  obtain ⟨_, _, _, hp0, _, hfr, hn, _⟩ := Strat.new_ok h0
  have hP : lazyPeriod s0.p = lazyPeriod p := by rw [hp0]; rfl
  obtain ⟨pop, s1, ha, _⟩ := Strat.ask_total (env := env) (s := s) ⟨hA.good.fixed_lt, by rw [hA.par]; exact hp.vd,
    by rw [hA.par]; exact hp.grad, fun _ => ⟨h.cov, fun hne => h.eig (by rw [← hA.niter]; exact hne)⟩,
    fun hs => by rw [hA.par] at hs; exact absurd (hs.symm.trans hp.sep) (by decide),
    fun ht => by rw [hA.par] at ht; exact absurd ht hp.tpa⟩
  obtain ⟨t1, h1, e1, e2, e3⟩ := ask_es ha
  obtain ⟨u, hu, hh, hi, hb⟩ := lazy_ask hn (by rw [hp0]; exact hp.sep) (by rw [hp0]; exact hp.vd)
    (by rw [hp0]; exact hp.lazy) g h.run h1
  rw [hP] at hu hb
  refine ⟨pop, s1, ha, by rw [(Strat.ask_frame ha).2, hA.par], by rw [e3, hb], ⟨u, hu, by rw [e1]; exact hh.eig⟩, ?_⟩
  intro hg j hj
  have hu0 : u = s0 := by
    rw [show periodStart (lazyPeriod p) g = 0 by unfold periodStart; rw [Nat.div_eq_of_lt hg, mul_zero]] at hu
    injection hu with hu; exact hu.symm
  subst hu0
  obtain ⟨t1', pop1, h1', h2, h3⟩ := ask_plain (by rw [hA.par]; exact hp.grad) (Or.inl (by rw [hA.par]; exact hp.tpa)) ha
  rw [h1] at h1'
  injection h1' with h1'
  subst h1'
  obtain ⟨es', ei, ue, e5⟩ := Strat.askPrepare_frame h1
  have ep : t1.p = s.p := by rw [e5]
  have esg : t1.sol.sigma = s.sol.sigma := by rw [e5]
  have enz : t1.nz = s.nz := by rw [e5]
  have hlam : s.p.lambda = p.lambda := by rw [hA.par]
  unfold Strat.askSample at h2
  simp only at h2
  rw [if_pos (by rw [ep, hA.par]; simp [hp.sep, hp.vd]), if_neg (by rw [hh.eig]; simp)] at h2
  injection h2 with h2; injection h2 with h4 h5
  rw [← h4] at h3
  obtain ⟨x, hx, hx'⟩ := fixed_sample (p := s.p) (j := j) (z := env.z (t1.nz + j)) h3 (by
    rw [ep, hlam]
    simp [List.getElem?_range hj])
  rw [hx]
  congr 1
  funext l
  rw [hx' l (by rw [hA.par]; unfold Free; rw [hp.extras.fixed]; simp), hh.mean, hh.transform, esg, enz, hA.nz, hfr.cov, add_comm]
  rfl

/-- `eval` after it. -/
theorem Pulled.eval {env : Env n} {p : Params n} {s0 s s1 : Strat n} {pop : List (Vec n)} {i0 : Fin n} {a d : ℝ} {g : ℕ}
    (hp : LazyActive p) (hf : ∀ k y, (env.f k y).IsNum)
    (h0 : Strat.new env .active p = .ok s0) (h : Pulled env s0 i0 a d g s) (ha : s.ask env = .ok (pop, s1)) :
    ∃ s2, s1.phenoCols pop = .ok pop ∧ s1.eval env pop pop = .ok s2 ∧ StrictWeakOn candLt s2.sol.cands ∧ s2.p = s.p ∧
      s2.kind = .active ∧ s2.sol.cands.length = s.p.lambda ∧ s2.es = s1.es ∧
      s2.sol = { s1.sol with lambdaReev := s2.sol.lambdaReev, cands := s2.sol.cands, nevals := s2.sol.nevals, candsUh := s2.sol.candsUh } ∧
      ∀ (r : ℕ) (x : Vec n), pop[r]? = some x → ∃ k, s2.sol.cands[r]? = some ⟨env.f k x, x, r⟩ := by
  have hA := along hp h0 h.run
  obtain ⟨⟨es, ei, ue, c, nz, x1, x2, p1, p2, e1⟩, hpl⟩ := Strat.ask_frame ha
  have hel : s1.elitistRef = none := by
    unfold Strat.elitistRef
    rw [e1]; simp only; rw [hA.par]
    simp [hp.extras.elitist, hp.extras.initialElitist, hp.extras.onRestart]
  have hon : s1.elitismOn = false := by
    unfold Strat.elitismOn
    rw [e1]; simp only; rw [hA.par]
    simp [hp.extras.elitist, hp.extras.initialElitist, hp.extras.onRestart]
  obtain ⟨s2, hev⟩ := Strat.eval_total (env := env) (s := s1) (cols := pop) (phen := pop)
    (by rw [e1, hA.par]; exact hp.uh) (by rw [e1]; exact hA.good.lambda) (by rw [e1]; exact hA.cands)
    (by rw [hpl, e1]) (by rw [hpl, e1]) (by rw [hon]; intro h; cases h)
  have hnn : NoNaN s2.sol.cands := by
    intro c hc
    rcases Strat.eval_values (by rw [e1, hA.par]; exact hp.uh) (by rw [hpl, e1]; exact hA.cands.le) hev c hc with
      ⟨j, y, e, _⟩ | ⟨_, e⟩
    · rw [e]; exact negIf_isNum (hf j y)
    · rw [hel] at e; cases e
  refine ⟨s2, phenoCols_plain (by rw [e1, hA.par]; exact hp.gp) pop, hev, strictWeakOn_of_noNaN hnn, ?_⟩
  obtain ⟨c2, nu, nzuh, lr, cu, cs, e2, hcs, _⟩ := Strat.eval_frame hev
  refine ⟨by rw [e2, e1], by rw [e2, e1]; exact hA.kind, ?_, by rw [e2], by rw [e2], ?_⟩
  · rw [e2]
    show cs.length = _
    rw [hcs, e1]; exact hA.cands
  · intro r x hx
    obtain ⟨hb1, hb2⟩ := Strat.eval_bounds hev
    obtain ⟨s3', h3, e3⟩ := Strat.eval_ok (by rw [e1, hA.par]; exact hp.uh) hev
    have h3' : s3' = s1.evaluated env pop pop := by
      unfold Strat.reinject at h3
      rw [if_neg (by
        rw [show (s1.evaluated env pop pop).elitismOn = s1.elitismOn by rfl, hon]; simp)] at h3
      injection h3 with h3; exact h3.symm
    have e4 : s2.sol.cands = (s1.evaluated env pop pop).sol.cands := by rw [e3, h3']; rfl
    obtain ⟨hr, hx'⟩ := List.getElem?_eq_some_iff.1 hx
    refine ⟨s1.calls.length + (s1.order env pop.length).idxOf r, ?_⟩
    rw [e4, Strat.evaluated_cands hb1, if_pos hr]
    have ey : colY pop pop r = x := by
      unfold colY colX
      rw [if_neg (by rw [List.isEmpty_iff]; rintro rfl; simp at hr), List.getD, hx, Option.getD_some]
    have ex : colX pop r = x := by
      unfold colX
      rw [List.getD, hx, Option.getD_some]
    rw [ey, ex, show s1.negate = false by rw [e1]; exact hA.negate]
    rfl

/-- The decomposition of the identity is the one in use in the first period. -/
theorem Pulled.csqinv {env : Env n} {p : Params n} {s0 s s1 : Strat n} {pop : List (Vec n)} {i0 : Fin n} {a d : ℝ} {g : ℕ}
    (hp : LazyActive p) (h0 : Strat.new env .active p = .ok s0) (h : Pulled env s0 i0 a d g s) (hg : g < lazyPeriod p)
    (ha : s.ask env = .ok (pop, s1)) : csqinvOf s1.es s1.sol = .ok 1 ∧ s1.es.eig.isSome = true := by
  obtain ⟨_, _, _, _, _, hfr, _⟩ := Strat.new_ok h0
  obtain ⟨pop', s1', ha', _, hup, ⟨u, hu, he⟩, _⟩ := h.ask hp h0
  rw [ha] at ha'
  injection ha' with ha'; injection ha' with _ e1
  subst e1
  have hu0 : u = s0 := by
    rw [show periodStart (lazyPeriod p) g = 0 by unfold periodStart; rw [Nat.div_eq_of_lt hg, mul_zero]] at hu
    injection hu with hu; exact hu.symm
  subst hu0
  rw [hfr.cov] at he
  refine ⟨?_, by rw [he]; rfl⟩
  obtain ⟨⟨es, ei, ue, c, nz, x1, x2, p1, p2, e1⟩, _⟩ := Strat.ask_frame ha
  unfold csqinvOf
  rw [hup, Nat.mod_eq_of_lt hg]
  by_cases h00 : g = 0
  · rw [if_pos (by simpa using h00), he]
    exact inverseSqrt_one env.eig
  · obtain ⟨c1, c2⟩ := h.csq h00
    rw [if_neg (by simpa using h00), if_pos (by rw [e1]; exact c1)]
    rw [e1]; exact congrArg _ c2

/-- Sorting a sorted list changes nothing. -/
theorem stableSort_sorted {l cs : List (Cand n)} (hl : l.Pairwise fun x y => ¬ candLt y x)
    (h : stableSort candLt l = .ok cs) : cs = l := by
  classical
  unfold stableSort at h
  split_ifs at h
  injection h with h
  rw [← h]
  exact List.mergeSort_of_pairwise (hl.imp fun h => by simpa using h)

/-- One generation of the first period. -/
theorem Pulled.next {env : Env n} {p : Params n} {s0 s : Strat n} {i0 : Fin n} {r : ℝ} {g : ℕ} (hp : LazyActive p)
    (h0 : Strat.new env .active p = .ok s0)
    (hf : ∀ k y, env.f k y = .num ((∑ i, (y i - s0.sol.xmean i) ^ 2 : ℝ) : EReal)) (hr : 0 < r)
    (hz : ∀ j < p.lambda, env.z (g * p.lambda + j) =
      if j < p.lambda - p.mu then 0 else (rootOne env.eig)ᵀ.mulVec (Pi.single i0 r))
    (hcap : 0.34 * (1 - p.cmu) / (r * r) ≤
      (1 - p.cmu) * 2 / 8 * (p.muw / (((n : ℝ) + 2) ^ (1.5 : ℝ) + 2 * p.muw)))
    (hg : g < lazyPeriod p)
    (h : Pulled env s0 i0 (1 - p.c1 - p.cmu + 0.34 * (1 - p.cmu) / (r * r) * 0.5) (0.34 * (1 - p.cmu)) g s) :
    ∃ s', Pulled env s0 i0 (1 - p.c1 - p.cmu + 0.34 * (1 - p.cmu) / (r * r) * 0.5) (0.34 * (1 - p.cmu)) (g + 1) s' := by
  have hA := along hp h0 h.run
  have hlam : s.p.lambda = p.lambda := by rw [hA.par]
  have hgood : GoodParams p := hp.configured.good.1
  obtain ⟨pop, s1, ha, hpl, _, _, hpop⟩ := h.ask hp h0
  obtain ⟨s2, hph, hev, hsw, e2p, e2k, e2c, e2e, e2s, hval⟩ := h.eval hp (fun k y => by rw [hf]; trivial) h0 ha
  obtain ⟨hcsq, heig⟩ := h.csqinv hp h0 hg ha
  obtain ⟨⟨es, ei, ue, c, nz, x1, x2, p1, p2, e1⟩, _⟩ := Strat.ask_frame ha
  have hcsq2 : csqinvOf s2.es s2.sol = .ok 1 := by
    rw [e2e, e2s]; exact hcsq
  have hsep2 : s2.p.sep = false := by rw [e2p, hA.par]; exact hp.sep
  have huh2 : s2.p.uh = false := by rw [e2p, hA.par]; exact hp.uh
  obtain ⟨s3, ht⟩ := Strat.tell_total (env := env) (s := s2) (by rw [e2p]; exact hA.good) (by rw [e2p]; exact hA.strict)
    (by rw [e2k]; decide) (by rw [e2p, hA.par]; exact hp.vd) huh2
    (by rw [e2s, e1]; exact h.paths) (by rw [e2s, e1]; exact h.sigma) (by rw [e2c, e2p])
    (by rw [e2s, e1, e2p]; exact hA.kcand) (by rw [hsep2]; intro h; cases h)
    (fun _ => ⟨by rw [e2s, e1]; exact h.cov, by rw [e2e]; exact heig, 1, hcsq2⟩) hsw
  have hgen : s.generation env = .ok s3.incIter := by
    unfold Strat.generation
    rw [ha, Out.ok_bind]
    show (s1.phenoCols pop >>= _) = _
    rw [hph, Out.ok_bind, hev, Out.ok_bind, ht, Out.ok_bind]; rfl
  -- the candidates
  set v : Vec n := Pi.single i0 r with hv
  set m := s0.sol.xmean with hm
  set σ := s.sol.sigma with hσ
  have hσ0 : 0 < σ := h.sigma
  have hroot : (rootOne env.eig).mulVec ((rootOne env.eig)ᵀ.mulVec v) = v := by
    rw [mulVec_mulVec, rootOne_mul, one_mulVec]
  have hpt : ∀ j < p.lambda, pop[j]? = some (if j < p.lambda - p.mu then m else m + σ • v) := by
    intro j hj
    rw [hpop hg j hj, hz j hj]
    congr 1
    funext l
    split_ifs
    · rw [mulVec_zero]; simp [hm]
    · rw [hroot]; simp [hm]
  have hcand : ∀ j < p.lambda, s2.sol.cands[j]? = some (if j < p.lambda - p.mu then ⟨.num 0, m, j⟩ else
      ⟨.num ((σ ^ 2 * r ^ 2 : ℝ) : EReal), m + σ • v, j⟩) := by
    intro j hj
    obtain ⟨k, hk⟩ := hval j _ (hpt j hj)
    rw [hk, hf]
    split_ifs
    · simp
    · congr 4
      rw [sum_eq_single i0]
      · simp [hv, mul_pow]
      · intro b _ hb; simp [hv, hb]
      · simp
  have hlen : s2.sol.cands.length = p.lambda := by rw [e2c, hlam]
  have hsorted : s2.sol.cands.Pairwise fun x y => ¬ candLt y x := by
    rw [List.pairwise_iff_getElem]
    intro i j hi hj hij
    have h1 := hcand i (by omega)
    have h2 := hcand j (by omega)
    rw [List.getElem?_eq_getElem hi] at h1
    rw [List.getElem?_eq_getElem hj] at h2
    rw [Option.some.inj h1, Option.some.inj h2]
    have hpos : (0 : EReal) ≤ ((σ ^ 2 * r ^ 2 : ℝ) : EReal) := by
      exact_mod_cast (by positivity : (0 : ℝ) ≤ σ ^ 2 * r ^ 2)
    by_cases a1 : i < p.lambda - p.mu
    · by_cases a2 : j < p.lambda - p.mu
      · rw [if_pos a1, if_pos a2]; exact lt_irrefl (0 : EReal)
      · rw [if_pos a1, if_neg a2]; exact not_lt.2 hpos
    · rw [if_neg a1, if_neg (by omega)]
      exact lt_irrefl (((σ ^ 2 * r ^ 2 : ℝ) : EReal))
  obtain ⟨sol3, sol4, hupd, _, hsort, ⟨cu, su, ts, bh, kb, bf, mf, bs, bi, ws, e3⟩, mx, mn, lv, le, e4⟩ := Strat.tell_step ht
  have hcs3 : sol3.cands = s2.sol.cands := stableSort_sorted hsorted (hsort huh2)
  have hX : ∀ j < p.lambda, candX sol3.cands j = if j < p.lambda - p.mu then m else m + σ • v := by
    intro j hj
    unfold candX
    rw [hcs3, List.getD, hcand j hj, Option.getD_some]
    split_ifs <;> rfl
  -- the fields of the state before the update
  have f1 : sol3.xmean = m := by rw [e3, e2s, e1]; exact h.mean
  have f2 : sol3.sigma = σ := by rw [e3, e2s, e1]
  have f3 : sol3.pc = 0 := by rw [e3, e2s, e1]; exact h.pc
  have f4 : sol3.cov = s.sol.cov := by rw [e3, e2s, e1]
  have f5 : csqinvOf s2.es sol3 = .ok 1 := by rw [e3]; exact hcsq2
  have f6 : sol3.hasCov = true := by rw [e3, e2s, e1]; exact h.cov
  have f7 : sol3.pathsOk = true := by rw [e3, e2s, e1]; exact h.paths
  -- the parts of the update
  have hmu : p.mu = p.lambda / 2 := hgood.mu
  have hlam2 : 2 ≤ p.lambda := hgood.lambda
  have hpm : s2.p.mu = p.mu ∧ s2.p.lambda = p.lambda ∧ s2.p.weights = p.weights ∧ s2.p.c1 = p.c1 ∧ s2.p.cmu = p.cmu ∧
      s2.p.cc = p.cc ∧ s2.p.muw = p.muw := by
    rw [e2p, hA.par]; exact ⟨rfl, rfl, rfl, rfl, rfl, rfl, rfl⟩
  obtain ⟨q1, q2, q3, q4, q5, q6, q7⟩ := hpm
  have g1 : recombineActive s2.p sol3 = m := by
    funext k
    unfold recombineActive
    rw [q1, f1, sum_eq_zero, zero_add]
    intro i hi
    have := mem_range.1 hi
    rw [hX i (by omega), if_pos (by omega)]; simp
  have g2 : rankMu s2.p sol3 = 0 := by
    unfold rankMu
    rw [q1, f1, sum_eq_zero, smul_zero]
    intro i hi
    have := mem_range.1 hi
    rw [hX i (by omega), if_pos (by omega)]; simp
  have g3 : rankMuMinus s2.p sol3 = vecMulVec v v := by
    unfold rankMuMinus
    rw [q1, q2, q3, f1, f2]
    have : ∀ i ∈ range p.mu, p.weights i • vecMulVec ((1 / σ) • (candX sol3.cands (p.lambda - i - 1) - m))
        ((1 / σ) • (candX sol3.cands (p.lambda - i - 1) - m)) = p.weights i • vecMulVec v v := by
      intro i hi
      have := mem_range.1 hi
      rw [hX _ (by omega), if_neg (by omega), add_sub_cancel_left, smul_smul, one_div, inv_mul_cancel₀ hσ0.ne', one_smul]
    rw [sum_congr rfl this, ← sum_smul, hgood.weights.sum_one, one_smul]
  have hvv : v ⬝ᵥ v = r * r := by simp [hv]
  have g4 : cminusOf s2.p (maxCoeff (env.eig.solve (1 * rankMuMinus s2.p sol3 * 1)).1) =
      .ok (0.34 * (1 - p.cmu) / (r * r)) := by
    rw [g3, Matrix.mul_one, Matrix.one_mul, max_rank_one hgood.dim, hvv]
    unfold cminusOf
    simp only
    rw [if_neg (by positivity), q5, q7]
    have : (1 - p.cmu) * (1 - 0.66) / (r * r) = 0.34 * (1 - p.cmu) / (r * r) := by norm_num; ring
    rw [this, min_eq_left hcap]
  -- the update
  obtain ⟨hb, e4'⟩ : ∃ hb, sol4 = acovNext s2.p sol3 1 hb (0.34 * (1 - p.cmu) / (r * r)) := by
    unfold covarianceUpdate at hupd
    rw [e2k] at hupd
    simp only at hupd
    rw [if_neg (by simp [hsep2])] at hupd
    unfold acovUpdateFull at hupd
    obtain ⟨_, _, hupd⟩ := Out.bind_eq_ok.1 hupd
    split_ifs at hupd
    obtain ⟨csq, k1, hupd⟩ := Out.bind_eq_ok.1 hupd
    obtain ⟨hb, _, hupd⟩ := Out.bind_eq_ok.1 hupd
    obtain ⟨cm, k3, hupd⟩ := Out.bind_eq_ok.1 hupd
    rw [f5] at k1
    injection k1 with k1
    subst k1
    rw [g4] at k3
    injection k3 with k3
    subst k3
    injection hupd with hupd
    exact ⟨hb, hupd.symm⟩
  have hdiff : diffMean sol3 m = 0 := by
    funext k; unfold diffMean; rw [f1]; simp
  have hpc : ∀ b, pcNext s2.p sol3 b m = 0 := by
    intro b; unfold pcNext; rw [f3, hdiff]; simp
  have r1 : s3.incIter.sol.xmean = m := by rw [e4, e4']; exact g1
  have r2 : s3.incIter.sol.pc = 0 := by
    rw [e4, e4']
    show pcNext s2.p sol3 _ (recombineActive s2.p sol3) = 0
    rw [g1]; exact hpc _
  have r3 : s3.incIter.sol.cov = (1 - p.c1 - p.cmu + 0.34 * (1 - p.cmu) / (r * r) * 0.5) • s.sol.cov -
      (0.34 * (1 - p.cmu) / (r * r)) • vecMulVec v v := by
    rw [e4, e4']
    unfold acovNext
    show (1 - s2.p.c1 - s2.p.cmu + _ * 0.5) • sol3.cov + s2.p.c1 • vecMulVec (pcNext s2.p sol3 _ (recombineActive s2.p sol3))
      (pcNext s2.p sol3 _ (recombineActive s2.p sol3)) + (s2.p.cmu + _ * (1 - 0.5)) • rankMu s2.p sol3 -
      _ • rankMuMinus s2.p sol3 = _
    rw [g1, hpc, g2, g3, f4, q4, q5, smul_zero, vecMulVec_zero, smul_zero, add_zero, add_zero]
  refine ⟨s3.incIter, Strat.generations_snoc g h.run hgen, r1, r2, ?_, ?_, ?_, fun _ => ⟨?_, ?_⟩, fun _ => ?_, ?_, ?_⟩
  · have : s3.incIter.sol.sigma = sigmaUpdate s2.p sol3 (vnorm sol4.psigma) := by
      rw [e4]
      show (if s2.p.uh = true ∧ _ then _ else _) = _
      rw [if_neg (by rw [huh2]; simp), e4']
      rfl
    rw [this]
    exact sigmaUpdate_pos (by rw [f2]; exact hσ0) _
  · rw [e4, e4']; exact f6
  · rw [e4, e4']; exact f7
  · rw [e4, e4']; rfl
  · rw [e4, e4']; rfl
  · rw [e4]; show s2.es.eig.isSome = true; rw [e2e]; exact heig
  · rw [r3]
    exact (h.symm.smul _).sub ((isSymm_vecMulVec v).smul _)
  · rw [r3, varAfter_succ]
    simp only [Matrix.sub_apply, Matrix.smul_apply, smul_eq_mul, h.var, vecMulVec_apply, hv, Pi.single_eq_same]
    rw [div_mul_cancel₀ _ (by positivity)]

end Libcmaes
