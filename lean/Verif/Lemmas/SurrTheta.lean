import Verif.Lemmas.SurrAcmStep

/-! # The selection spreads as set by the user are not read -/

namespace Libcmaes

namespace Surr

variable {n : ℕ} {M : Type}

/-- Other spreads. -/
def th (a b : ℝ) (t : Surr n M) : Surr n M := { t with theta0 := a, theta1 := b }

theorem begun_th (a b : ℝ) (t : Surr n M) : (t.th a b).begun = t.begun.th a b := by
  have h : (t.th a b).s = t.s := rfl
  have h' : (t.th a b).tset = t.tset := rfl
  unfold begun
  rw [h, h']
  split_ifs <;> rfl

theorem acmAsk_th (env : Env n) (a b : ℝ) (t : Surr n M) :
    (t.th a b).acmAsk env = t.acmAsk env >>= fun q => .ok (q.1, q.2.th a b) := by
  rw [acmAsk_eq, acmAsk_eq, begun_th]
  have h1 : (t.th a b).exploit = t.exploit := rfl
  have h2 : (t.begun.th a b).full = t.begun.full := rfl
  have h3 : (t.begun.th a b).prelambda = t.begun.prelambda := rfl
  have h4 : (t.th a b).s = t.s := rfl
  rw [h1, h2, h3, h4]
  by_cases hb : (t.exploit && t.begun.full) = true
  · rw [if_pos hb, if_pos hb]
    by_cases hneg : t.begun.prelambda < 0
    · rw [if_pos hneg, if_pos hneg]; rfl
    · rw [if_neg hneg, if_neg hneg]
      cases ({ t.s with p := { t.s.p with lambda := t.begun.prelambda.toNat } }).ask env <;> rfl
  · rw [if_neg hb, if_neg hb]
    cases t.s.ask env <;> rfl

theorem preSelect_th (sf : SurrFuncs n M) (fuel : ℕ) (a b : ℝ) (t : Surr n M) (cols : List (Vec n)) :
    (t.th a b).preSelect sf fuel cols =
      t.preSelect sf fuel cols >>= fun o => .ok (o.map fun q => (q.1, q.2.th a b)) := by
  unfold preSelect th
  simp only
  cases sf.predict t.m t.tset { t.s.sol with cands := cols.map fun x => ⟨FVal.ofReal 0, x, -1⟩ }
      (cols.map fun x => ⟨FVal.ofReal 0, x, -1⟩) with
  | error e => rfl
  | ok pr =>
    simp only [Out.ok_bind]
    cases stableSort candLt pr with
    | error e => rfl
    | ok sorted =>
      simp only [Out.ok_bind]
      cases at! sorted 0 with
      | error e => rfl
      | ok c0 =>
        simp only [Out.ok_bind]
        cases drawDistinct (fun k => castInt (⌊(t.prelambda : ℝ) * |t.dev0 * sf.z0 k|⌋ : ℤ)) sorted.length
            t.s.p.lambda fuel t.n0 [0] with
        | error e => rfl
        | ok o =>
          rcases o with _ | ⟨is, k⟩
          · rfl
          · simp only [Out.ok_bind]
            cases (is.tail.mapM fun i => (do
                let c ← at! sorted i
                pure ((c, (i : ℤ)) : RCand n) : Out (RCand n))) with
            | error e => rfl
            | ok rest =>
              simp only [Out.ok_bind]
              cases unstableSort sf.usortR (fun a b : RCand n => FVal.lt a.1.fvalue b.1.fvalue) ((c0, 0) :: rest) <;> rfl

theorem acmEvalFold_th (env : Env n) (a b : ℝ) (js : List ℕ) (q : Surr n M × List (RCand n) × List (Cand n)) :
    js.foldlM (acmEvalOne env) (q.1.th a b, q.2) =
      js.foldlM (acmEvalOne env) q >>= fun r => .ok (r.1.th a b, r.2) := by
  induction js generalizing q with
  | nil => rfl
  | cons j js ih =>
    rw [List.foldlM_cons, List.foldlM_cons]
    have h1 : acmEvalOne env (q.1.th a b, q.2) j = acmEvalOne env q j >>= fun r => .ok (r.1.th a b, r.2) := by
      unfold acmEvalOne
      simp only
      cases at! q.2.1 j with
      | error e => rfl
      | ok c =>
        simp only [Out.ok_bind]
        have : (q.1.th a b).s.p.gp = q.1.s.p.gp := rfl
        rw [this]
        cases phenoV q.1.s.p.gp c.1.x <;> rfl
    rw [h1]
    cases acmEvalOne env q j with
    | error e => rfl
    | ok r => simp only [Out.ok_bind]; exact ih r

theorem evalSelected_th (env : Env n) (sf : SurrFuncs n M) (fuel : ℕ) (a b : ℝ) (t : Surr n M)
    (nc : List (RCand n)) : (t.th a b).evalSelected env sf fuel nc =
      t.evalSelected env sf fuel nc >>= fun o => .ok (o.map (th a b)) := by
  unfold evalSelected
  have h1 : (t.th a b).s = t.s := rfl
  have h2 : (t.th a b).dev1 = t.dev1 := rfl
  have h3 : (t.th a b).lambdaprime = t.lambdaprime := rfl
  have h4 : (t.th a b).n1 = t.n1 := rfl
  rw [h1, h2, h3, h4]
  cases drawDistinct (fun k => castInt (⌊(t.s.p.lambda : ℝ) * |t.dev1 * sf.z1 k|⌋ : ℤ)) nc.length
      t.lambdaprime fuel t.n1 [0] with
  | error e => rfl
  | ok o =>
    rcases o with _ | ⟨js, k⟩
    · rfl
    · simp only [Out.ok_bind]
      have h5 := acmEvalFold_th env a b js (({ t with n1 := k } : Surr n M), nc, ([] : List (Cand n)))
      erw [h5]
      cases js.foldlM (acmEvalOne env) (({ t with n1 := k } : Surr n M), nc, ([] : List (Cand n))) with
      | error e => rfl
      | ok r =>
        simp only [Out.ok_bind]
        obtain ⟨t1, nc1, test⟩ := r
        simp only
        cases unstableSort sf.usortR acmLess (nc1.zipIdx.map fun q =>
            if q.2 ∈ js then q.1 else ({ q.1.1 with fvalue := FVal.ofReal dblMax }, q.1.2)) with
        | error e => rfl
        | ok nc3 =>
          simp only [Out.ok_bind]
          have h6 : (t1.th a b).computeError sf test = t1.computeError sf test := rfl
          rw [h6]
          cases t1.computeError sf test <;> rfl

theorem acmEval_th (env : Env n) (sf : SurrFuncs n M) (fuel : ℕ) (a b : ℝ) (t : Surr n M)
    (cols phen : List (Vec n)) : (t.th a b).acmEval env sf fuel cols phen =
      t.acmEval env sf fuel cols phen >>= fun o => .ok (o.map (th a b)) := by
  unfold acmEval
  have h1 : (t.th a b).exploit = t.exploit := rfl
  have h2 : (t.th a b).full = t.full := rfl
  have h3 : (t.th a b).s = t.s := rfl
  rw [h1, h2, h3, preSelect_th]
  by_cases hb : (t.exploit && t.full) = true
  · rw [if_pos hb, if_pos hb]
    cases t.preSelect sf fuel cols with
    | error e => rfl
    | ok o =>
      rcases o with _ | ⟨nc, t1⟩
      · rfl
      · simp only [Out.ok_bind, Option.map_some]
        exact evalSelected_th env sf fuel a b t1 nc
  · rw [if_neg hb, if_neg hb]
    have hcol : ∀ t1 : Surr n M, (t1.th a b).evalAndCollect env cols phen =
        t1.evalAndCollect env cols phen >>= fun t2 => .ok (t2.th a b) := by
      intro t1
      unfold evalAndCollect
      have h4 : (t1.th a b).s = t1.s := rfl
      rw [h4]
      cases t1.s.eval env cols phen with
      | error e => rfl
      | ok s => simp only [Out.ok_bind, foldl_add, Out.pure_eq]; rfl
    by_cases hc : t.s.niter ≠ 0 ∧ t.full = true
    · rw [if_pos hc, if_pos hc]
      have h6 : (t.th a b).computeError sf t.s.sol.cands = t.computeError sf t.s.sol.cands := rfl
      rw [h6]
      cases t.computeError sf t.s.sol.cands with
      | error e => rfl
      | ok e =>
        simp only [Out.ok_bind, Out.pure_eq]
        have h7 : (t.th a b).setTestError e = (t.setTestError e).th a b := rfl
        rw [h7, hcol]
        cases (t.setTestError e).evalAndCollect env cols phen <;> rfl
    · rw [if_neg hc, if_neg hc]
      simp only [Out.ok_bind]
      rw [hcol]
      cases t.evalAndCollect env cols phen <;> rfl

theorem acmTell_th (env : Env n) (sf : SurrFuncs n M) (a b : ℝ) (t : Surr n M) :
    (t.th a b).acmTell env sf = t.acmTell env sf >>= fun t' => .ok (t'.th a b) := by
  unfold acmTell
  have h1 : (t.th a b).exploit = t.exploit := rfl
  have h2 : (t.th a b).full = t.full := rfl
  have h3 : (t.th a b).s = t.s := rfl
  rw [h1, h2, h3]
  cases (if !t.exploit || !t.full then t.s.sol.sortCandidates else pure t.s.sol) with
  | error e => rfl
  | ok sol1 =>
    simp only [Out.ok_bind]
    cases sol1.updateBest with
    | error e => rfl
    | ok sol2 =>
      simp only [Out.ok_bind]
      cases covarianceUpdate env.eig t.s.kind t.s.p t.s.es sol2 with
      | error e => rfl
      | ok sol3 =>
        simp only [Out.ok_bind]
        cases acmEigenv { t.s with sol := sol3 } with
        | error e => rfl
        | ok s4 =>
          simp only [Out.ok_bind]
          have h4 : ∀ q : Surr n M, (q.th a b).acmDoTrain = q.acmDoTrain := fun _ => rfl
          erw [h4 { t with s := s4 }]
          cases ({ t with s := s4 } : Surr n M).acmDoTrain with
          | error e => rfl
          | ok c =>
            simp only [Out.ok_bind]
            cases c with
            | false => rfl
            | true =>
              simp only [if_true]
              have h5 : (t.th a b).m = t.m := rfl
              have h6 : (t.th a b).tset = t.tset := rfl
              simp only [h5, h6]
              cases sf.train t.m t.tset s4.sol with
              | error e => rfl
              | ok m =>
                simp only [Out.ok_bind]
                have h7 : ∀ q : Surr n M, (q.th a b).computeError sf t.tset = q.computeError sf t.tset := fun _ => rfl
                erw [h7 { t with s := s4, m := m }]
                cases ({ t with s := s4, m := m } : Surr n M).computeError sf t.tset <;> rfl

theorem acmGeneration_th (env : Env n) (sf : SurrFuncs n M) (fuel : ℕ) (a b : ℝ) (t : Surr n M) :
    (t.th a b).acmGeneration env sf fuel = t.acmGeneration env sf fuel >>= fun o => .ok (o.map (th a b)) := by
  unfold acmGeneration
  rw [acmAsk_th]
  cases t.acmAsk env with
  | error e => rfl
  | ok q =>
    obtain ⟨pop, t1⟩ := q
    simp only [Out.ok_bind]
    have h1 : (t1.th a b).s = t1.s := rfl
    rw [h1]
    cases t1.s.phenoCols pop with
    | error e => rfl
    | ok phen =>
      simp only [Out.ok_bind]
      rw [acmEval_th]
      cases t1.acmEval env sf fuel pop phen with
      | error e => rfl
      | ok o =>
        rcases o with _ | t2
        · rfl
        · simp only [Out.ok_bind, Option.map_some]
          rw [acmTell_th]
          cases t2.acmTell env sf <;> rfl

theorem acmGenerations_th (env : Env n) (sf : SurrFuncs n M) (fuel : ℕ) (a b : ℝ) (t : Surr n M) (k : ℕ) :
    (t.th a b).acmGenerations env sf fuel k = t.acmGenerations env sf fuel k >>= fun o => .ok (o.map (th a b)) := by
  induction k generalizing t with
  | zero => rfl
  | succ k ih =>
    unfold acmGenerations
    rw [acmGeneration_th]
    cases t.acmGeneration env sf fuel with
    | error e => rfl
    | ok o =>
      rcases o with _ | t1
      · rfl
      · simp only [Out.ok_bind, Option.map_some]
        exact ih t1

end Surr

end Libcmaes
