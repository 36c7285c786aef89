import Verif.Spec.Surrogate
import Verif.Lemmas.Total
import Verif.Lemmas.Elitism

/-! # Surrogate strategies: lemmas -/

namespace Libcmaes

open Spec

variable {n : ℕ} {M : Type}

/-! ### Evaluation -/

/-- Evaluation of a whole population without elitism: each candidate has the answer to the call at its phenotype. -/
theorem Strat.eval_answers {env : Env n} {s s' : Strat n} {cols phen : List (Vec n)} (huh : s.p.uh = false)
    (hel : s.elitismOn = false) (hlen : s.sol.cands.length = cols.length) (hph : s.phenoCols cols = .ok phen)
    (h : s.eval env cols phen = .ok s') :
    ∃ c c', s'.calls = s.calls ++ c ∧ c'.Perm c ∧ (s.p.mtFeval = false → c' = c) ∧
      List.Forall₂ (Answers s.negate s.p.gp) s'.sol.cands c' := by
  obtain ⟨h1, h2⟩ := Strat.eval_bounds h
  obtain ⟨s3, h3, e⟩ := Strat.eval_ok huh h
  have e3 : s3 = s.evaluated env cols phen := by
    rcases Strat.reinject_frame h3 with h | ⟨_, _, hon, _⟩
    · exact h
    · have : (s.evaluated env cols phen).elitismOn = s.elitismOn := rfl
      rw [this, hel] at hon; cases hon
  have hpl : cols.length = phen.length := Out.mapM_length hph
  have hY : ∀ r < cols.length, phenoV s.p.gp (colX cols r) = .ok (colY cols phen r) := by
    intro r hr
    have := (Out.mapM_eq_ok.1 hph)
    have hne : phen ≠ [] := by intro h0; rw [h0, List.length_nil] at hpl; omega
    unfold colY colX
    rw [if_neg (by simpa using hne)]
    simp only [List.getD_eq_getElem?_getD, List.getElem?_eq_getElem hr,
      List.getElem?_eq_getElem (show r < phen.length by omega), Option.getD_some]
    exact (List.forall₂_iff_get.1 this).2 r hr (by omega)
  set o := s.order env cols.length with ho
  set F : ℕ → Vec n × FVal := fun r =>
    (colY cols phen r, env.f (s.calls.length + o.idxOf r) (colY cols phen r)) with hF
  have hc : loopCalls env.f (colY cols phen) s.calls.length o = o.map F := by
    refine List.ext_getElem? fun j => ?_
    rw [loopCalls_getElem?, List.getElem?_map]
    cases hj : o[j]? with
    | none => rfl
    | some r =>
      obtain ⟨hjl, hr⟩ := List.getElem?_eq_some_iff.1 hj
      have : o.idxOf r = j := by
        rw [← hr]; exact (Strat.order_nodup env s cols.length).idxOf_getElem _ _
      simp [hF, this]
  refine ⟨loopCalls env.f (colY cols phen) s.calls.length o, (List.range cols.length).map F, ?_, ?_, ?_, ?_⟩
  · rw [e, e3]; rfl
  · rw [hc]; exact ((Strat.order_perm env s cols.length).map F).symm
  · intro hm
    rw [hc, ho]
    unfold Strat.order
    rw [if_neg (by simp [hm])]
  · have hcs : s'.sol.cands = (s.evaluated env cols phen).sol.cands := by rw [e, e3]; rfl
    rw [hcs, List.forall₂_iff_get]
    refine ⟨by rw [Strat.evaluated_length]; simpa using hlen, fun r hr hr' => ?_⟩
    have hr2 : r < cols.length := by simpa using hr'
    have := Strat.evaluated_cands (env := env) (phen := phen) h1 r
    rw [if_pos hr2, List.getElem?_eq_getElem hr] at this
    injection this with this
    simp only [List.get_eq_getElem, this, List.getElem_map, List.getElem_range]
    exact ⟨hY r hr2, rfl⟩

theorem Strat.eval_truth {env : Env n} {s s' : Strat n} {cols phen : List (Vec n)} (huh : s.p.uh = false)
    (h : s.eval env cols phen = .ok s') : ∃ c, s'.calls = s.calls ++ c ∧ ∀ q ∈ c, ∃ k, q.2 = env.f k q.1 := by
  obtain ⟨s3, h3, e⟩ := Strat.eval_ok huh h
  refine ⟨loopCalls env.f (colY cols phen) s.calls.length (s.order env cols.length), ?_, ?_⟩
  · rw [e]
    show s3.calls = _
    rcases Strat.reinject_frame h3 with h | ⟨_, _, _, h⟩ <;> rw [h] <;> rfl
  · intro q hq
    obtain ⟨j, hj⟩ := List.mem_iff_getElem?.1 hq
    rw [loopCalls_getElem?] at hj
    obtain ⟨r, _, rfl⟩ := Option.map_eq_some_iff.1 hj
    exact ⟨_, rfl⟩

theorem Strat.eval_points {env : Env n} {s s' : Strat n} {cols phen : List (Vec n)} (huh : s.p.uh = false)
    (hel : s.elitismOn = false) (hlen : s.sol.cands.length = cols.length) (h : s.eval env cols phen = .ok s') :
    s'.sol.cands.map (·.x) = cols := by
  obtain ⟨s3, h3, e⟩ := Strat.eval_ok huh h
  have e3 : s3 = s.evaluated env cols phen := by
    rcases Strat.reinject_frame h3 with h | ⟨_, _, hon, _⟩
    · exact h
    · have : (s.evaluated env cols phen).elitismOn = s.elitismOn := rfl
      rw [this, hel] at hon; cases hon
  have hcs : s'.sol.cands = (s.evaluated env cols phen).sol.cands := by rw [e, e3]; rfl
  obtain ⟨h1, _⟩ := Strat.eval_bounds h
  refine List.ext_getElem (by rw [List.length_map, hcs, Strat.evaluated_length]; exact hlen) fun r hr hr' => ?_
  rw [List.length_map] at hr
  have := Strat.evaluated_cands (env := env) (phen := phen) h1 r
  rw [if_pos hr', ← hcs, List.getElem?_eq_getElem hr] at this
  injection this with this
  rw [List.getElem_map, this]
  simp [colX, List.getD_eq_getElem?_getD, List.getElem?_eq_getElem hr']

/-! ### The training set -/

namespace Surr

/-- One candidate added to a training set of capacity `l`. -/
def push (l : ℤ) (ts : List (Cand n)) (c : Cand n) : List (Cand n) :=
  if ((ts ++ [c]).length : ℤ) > l then (ts ++ [c]).tail else ts ++ [c]

theorem add_eq (t : Surr n M) (c : Cand n) : t.add c = { t with tset := push t.l t.tset c } := rfl

theorem foldl_add (t : Surr n M) (cs : List (Cand n)) :
    cs.foldl add t = { t with tset := cs.foldl (push t.l) t.tset } := by
  induction cs generalizing t with
  | nil => rfl
  | cons c cs ih => rw [List.foldl_cons, ih, add_eq]; rfl

theorem push_lastN {l : ℤ} {h : List (Cand n)} {c : Cand n} :
    push l (lastN l.toNat h) c = lastN l.toNat (h ++ [c]) := by
  have hl := length_lastN l.toNat h
  unfold push
  rcases Nat.eq_zero_or_pos l.toNat with h0 | h0
  · have e : lastN l.toNat h = [] := by
      apply List.eq_nil_of_length_eq_zero; rw [hl, h0]; simp
    have e' : lastN l.toNat (h ++ [c]) = [] := by
      apply List.eq_nil_of_length_eq_zero; rw [length_lastN, h0]; simp
    rw [e, e', if_pos (by simp; omega)]
    rfl
  · have : lastN l.toNat (h ++ [c]) = if (lastN l.toNat h ++ [c]).length > l.toNat then
        (lastN l.toNat h ++ [c]).tail else lastN l.toNat h ++ [c] := lastN_push h0
    rw [this]
    have : ((lastN l.toNat h ++ [c]).length : ℤ) > l ↔ (lastN l.toNat h ++ [c]).length > l.toNat := by omega
    simp only [this]

theorem foldl_push {l : ℤ} {h : List (Cand n)} (cs : List (Cand n)) :
    cs.foldl (push l) (lastN l.toNat h) = lastN l.toNat (h ++ cs) := by
  induction cs generalizing h with
  | nil => simp
  | cons c cs ih => rw [List.foldl_cons, push_lastN, ih, List.append_assoc]; rfl

theorem lastN_self {α : Type} {k : ℕ} {l : List α} (h : l.length ≤ k) : lastN k l = l := by
  unfold lastN; rw [show l.length - k = 0 by omega]; rfl

/-! ### Frames -/

theorem exploitFold_frame {sf : SurrFuncs n M} (honly : OnlyValues sf) (qs : List (Vec n × ℕ)) {t t' : Surr n M}
    (h : qs.foldlM (exploitOne sf) t = .ok t') :
    ∃ cs, t' = { t with s := { t.s with sol := { t.s.sol with cands := cs } } } ∧
      cs.length = t.s.sol.cands.length := by
  induction qs generalizing t with
  | nil => injection h with h; exact ⟨t.s.sol.cands, h.symm, rfl⟩
  | cons q qs ih =>
    rw [List.foldlM_cons] at h
    obtain ⟨t1, h1, h⟩ := Out.bind_eq_ok.1 h
    obtain ⟨cs, e, hl⟩ := ih h
    unfold exploitOne at h1
    obtain ⟨c, _, h1⟩ := Out.bind_eq_ok.1 h1
    obtain ⟨cs', h2, h1⟩ := Out.bind_eq_ok.1 h1
    injection h1 with h1
    have := (honly _ _ _ _ _ h2).length_eq
    refine ⟨cs, ?_, ?_⟩
    · rw [e, ← h1]
    · rw [hl, ← h1]; show cs'.length = _
      rw [← this]; simp

/-- The test before a true evaluation. -/
theorem simpleTest_ok {sf : SurrFuncs n M} {t t' : Surr n M} (h : t.simpleTest sf = .ok t') :
    ((t.s.niter ≠ 0 ∧ t.full = true) → ∃ e, t.computeError sf t.s.sol.cands = .ok e ∧ ∃ k,
      t' = { t.setTestError e with nsteps := k } ∧
      (t.autoNsteps = true → (t.setTestError e).lifelength = .ok k) ∧ (t.autoNsteps = false → k = t.nsteps)) ∧
    (¬ (t.s.niter ≠ 0 ∧ t.full = true) → t' = t) := by
  unfold simpleTest at h
  by_cases hc : t.s.niter ≠ 0 ∧ t.full = true
  · rw [if_pos hc] at h
    refine ⟨fun _ => ?_, fun h' => absurd hc h'⟩
    obtain ⟨e, he, h⟩ := Out.bind_eq_ok.1 h
    refine ⟨e, he, ?_⟩
    have ha : (t.setTestError e).autoNsteps = t.autoNsteps := rfl
    simp only [ha] at h
    cases hau : t.autoNsteps with
    | true =>
      rw [if_pos hau] at h
      obtain ⟨k, hk, h⟩ := Out.bind_eq_ok.1 h
      injection h with h
      exact ⟨k, h.symm, fun _ => hk, fun h => by cases h⟩
    | false =>
      rw [if_neg (by simp [hau])] at h
      injection h with h
      exact ⟨t.nsteps, h.symm, fun h => (by cases h), fun _ => rfl⟩
  · rw [if_neg hc] at h
    injection h with h
    exact ⟨fun h' => absurd h' hc, fun _ => h.symm⟩

theorem simpleTell_ok {env : Env n} {sf : SurrFuncs n M} {t t' : Surr n M} (h : t.simpleTell env sf = .ok t') :
    ∃ s m, t.s.tell env = .ok s ∧ t' = { t with s := s, m := m } := by
  unfold simpleTell at h
  obtain ⟨s, hs, h⟩ := Out.bind_eq_ok.1 h
  obtain ⟨b, _, h⟩ := Out.bind_eq_ok.1 h
  refine ⟨s, t'.m, hs, ?_⟩
  split_ifs at h
  · obtain ⟨m, _, h⟩ := Out.bind_eq_ok.1 h
    injection h with h
    rw [← h]
  · injection h with h
    rw [← h]

/-- One generation of the simple surrogate strategy from `t` to `t'`; `b`: it used the true objective, which was
called as in `c`. -/
structure SimpleStep (sf : SurrFuncs n M) (t t' : Surr n M) (b : Bool) (c : List (Vec n × FVal)) : Prop where
  trueEval : t.trueEval = .ok b
  p : t'.s.p = t.s.p
  negate : t'.s.negate = t.s.negate
  niter : t'.s.niter = t.s.niter + 1
  initialElitist : t'.s.initialElitist = t.s.initialElitist
  cands : t'.s.sol.cands.length = t.s.sol.cands.length
  maxHist : t'.s.sol.maxHist = t.s.sol.maxHist
  l : t'.l = t.l
  exploit : t'.exploit = t.exploit
  auto : t'.autoNsteps = t.autoNsteps
  terr : t'.terr = t.terr
  nmax : t'.nmax = t.nmax
  calls : t'.s.calls = t.s.calls ++ c
  nevals : t'.s.nevals = t.s.nevals + c.length
  quiet : b = false → c = [] ∧ t'.tset = t.tset ∧ t'.smooth = t.smooth ∧ t'.nsteps = t.nsteps
  busy : b = true → c.length = t.s.p.lambda ∧ ∃ added : List (Cand n), added.length = t.s.sol.cands.length ∧
    t'.s.sol.cands.Perm added ∧ t'.tset = added.foldl (push t.l) t.tset ∧
    (t.s.elitismOn = false → ∃ c' : List (Vec n × FVal), c'.Perm c ∧ (t.s.p.mtFeval = false → c' = c) ∧
      List.Forall₂ (Answers t.s.negate t.s.p.gp) added c') ∧
    ((t.s.niter ≠ 0 ∧ t.full = true) → ∃ (sol1 : Sol n) (e : Option ℝ), sol1.cands = t.s.sol.cands ∧
      ({ t with s := { t.s with sol := sol1 } } : Surr n M).computeError sf t.s.sol.cands = .ok e ∧
      t'.testErr = e ∧ t'.smooth = (t.setTestError e).smooth ∧
      (t.autoNsteps = true → (t.setTestError e).lifelength = .ok t'.nsteps) ∧
      (t.autoNsteps = false → t'.nsteps = t.nsteps)) ∧
    (¬ (t.s.niter ≠ 0 ∧ t.full = true) → t'.smooth = t.smooth ∧ t'.nsteps = t.nsteps) ∧
    (t.s.elitismOn = true → ∀ b, t.s.elitistRef = some b → 2 ≤ t.s.p.lambda →
      ∃ c ∈ added, ¬ FVal.lt b.fvalue c.fvalue)

theorem simpleGeneration_step {env : Env n} {sf : SurrFuncs n M} {t t' : Surr n M} (honly : OnlyValues sf)
    (huh : t.s.p.uh = false) (hgr : t.s.p.withGradient = false)
    (hlen : t.s.sol.cands.length = t.s.p.lambda) (h : t.simpleGeneration env sf = .ok t') :
    ∃ b c, SimpleStep sf t t' b c := by
  unfold simpleGeneration at h
  obtain ⟨⟨pop, s1⟩, hask, h⟩ := Out.bind_eq_ok.1 h
  obtain ⟨phen, hph, h⟩ := Out.bind_eq_ok.1 h
  obtain ⟨t2, hev, h⟩ := Out.bind_eq_ok.1 h
  obtain ⟨t3, htl, h⟩ := Out.bind_eq_ok.1 h
  injection h with h
  have hcalls := Strat.ask_calls hask hgr
  obtain ⟨⟨es, ei, ue, c0, nz, x1, x2, p1, p2, e1⟩, hpl⟩ := Strat.ask_frame hask
  have hc0 : c0 = [] := by
    rw [e1] at hcalls
    simpa using hcalls
  subst hc0
  obtain ⟨s3, m, htl, e3⟩ := simpleTell_ok htl
  obtain ⟨cs', cu', su, ts, sol3, hsort, hb, csq, hc, sc, ps, hs', pc, cov, sep, v, sg, xp, xm, mx, mn, lv, le,
    e'⟩ := Strat.tell_frame htl
  obtain ⟨_, ck, cl, med, _, _, _, _, eb, _⟩ := Sol.updateBest_ok hb
  have hs3p : s3.p = t2.s.p := by rw [e']
  have hcl : t2.s.p.uh = false → s3.sol.cands.length = t2.s.sol.cands.length := by
    intro hu
    have : s3.sol.cands = cs' := by rw [e', eb]
    rw [this]
    exact (stableSort_eq_ok (hsort hu)).2.perm.length_eq
  have ht' : t' = { t2 with s := s3.incIter, m := m } := by rw [← h, e3]
  unfold simpleEval at hev
  obtain ⟨b, hbt, hev⟩ := Out.bind_eq_ok.1 hev
  have hbt' : t.trueEval = .ok b := by
    rw [← hbt]
    unfold trueEval full
    simp only
    rw [e1]
  cases b with
  | false =>
    rw [if_neg (by simp)] at hev
    obtain ⟨cs, e2, hl2⟩ := exploitFold_frame honly _ hev
    refine ⟨false, [], hbt', ?_, ?_, ?_, ?_, ?_, ?_, ?_, ?_, ?_, ?_, ?_, ?_, ?_, ?_, fun h => by cases h⟩
    · rw [ht']; show s3.p = _; rw [e', e2, e1]; rfl
    · rw [ht']; show s3.negate = _; rw [e', e2, e1]; rfl
    · rw [ht']; show s3.niter + 1 = _; rw [e', e2, e1]; rfl
    · rw [ht']; show s3.initialElitist = _; rw [e', e2, e1]; rfl
    · rw [ht']; show s3.sol.cands.length = _
      rw [hcl (by rw [e2, e1]; exact huh), e2]; show cs.length = _; rw [hl2, e1]; rfl
    · rw [ht']; show s3.sol.maxHist = _; rw [e', eb, e2, e1]; rfl
    · rw [ht', e2]; rfl
    · rw [ht', e2]; rfl
    · rw [ht', e2]; rfl
    · rw [ht', e2]; rfl
    · rw [ht', e2]; rfl
    · rw [ht']; show s3.calls = _; rw [e', e2, e1]; rfl
    · rw [ht']; show s3.nevals = _; rw [e', e2, e1]; rfl
    · intro _
      exact ⟨rfl, by rw [ht', e2]; rfl, by rw [ht', e2]; rfl, by rw [ht', e2]; rfl⟩
  | true =>
    rw [if_pos rfl] at hev
    obtain ⟨t1, hte, hev⟩ := Out.bind_eq_ok.1 hev
    obtain ⟨g1, g2⟩ := simpleTest_ok hte
    have hfr : ∃ te sm k, t1 = { ({ t with s := s1 } : Surr n M).setCrit 10 true with
        testErr := te, smooth := sm, nsteps := k } := by
      by_cases hcd : ((({ t with s := s1 } : Surr n M).setCrit 10 true).s.niter ≠ 0 ∧
          (({ t with s := s1 } : Surr n M).setCrit 10 true).full = true)
      · obtain ⟨e, _, k, he, _⟩ := g1 hcd
        exact ⟨_, _, k, he⟩
      · exact ⟨_, _, _, g2 hcd⟩
    obtain ⟨te, sm, k, e4⟩ := hfr
    unfold evalAndCollect at hev
    obtain ⟨s2, hs2, hev⟩ := Out.bind_eq_ok.1 hev
    injection hev with hev
    rw [foldl_add] at hev
    have e5 : t1.s = { s1 with crit := setCriteriaActive s1.crit 10 true } := by rw [e4]; rfl
    obtain ⟨c, nu, nzuh, lr, cu, cs, e6, hcs, hcl1, hcl2⟩ := Strat.eval_frame hs2
    have hs1uh : t1.s.p.uh = false := by rw [e5, e1]; exact huh
    have hclen : c.length = pop.length := by
      obtain ⟨s4, h4, e7⟩ := Strat.eval_ok hs1uh hs2
      have : s2.nevals = t1.s.nevals + pop.length := by
        rw [e7]
        show s4.nevals + pop.length = _
        rcases Strat.reinject_frame h4 with h | ⟨_, _, _, h⟩ <;> rw [h] <;> rfl
      rw [e6] at this
      simpa using this
    have ht2s : t2.s = s2 := by rw [← hev]
    have hs2' : s2.p = t.s.p ∧ s2.negate = t.s.negate ∧ s2.niter = t.s.niter ∧
        s2.initialElitist = t.s.initialElitist ∧ s2.sol.cands.length = t.s.sol.cands.length ∧
        s2.calls = t.s.calls ++ c ∧ s2.nevals = t.s.nevals + c.length := by
      refine ⟨by rw [e6, e5, e1], by rw [e6, e5, e1], by rw [e6, e5, e1], by rw [e6, e5, e1], ?_, ?_, ?_⟩
      · rw [e6]; show cs.length = _; rw [hcs, e5, e1]
      · rw [e6, e5, e1]; simp
      · rw [e6, e5, e1]; simp
    obtain ⟨q1, q2, q3, q4, q5, q6, q7⟩ := hs2'
    have h3c : s3.sol.cands.length = t.s.sol.cands.length := by
      rw [hcl (by rw [ht2s, q1]; exact huh), ht2s, q5]
    rw [ht2s] at e'
    refine ⟨true, c, hbt', ?_, ?_, ?_, ?_, ?_, ?_, ?_, ?_, ?_, ?_, ?_, ?_, ?_, (fun h => by cases h), fun _ => ?_⟩
    · rw [ht']; show s3.p = _; rw [e']; exact q1
    · rw [ht']; show s3.negate = _; rw [e']; exact q2
    · rw [ht']; show s3.niter + 1 = _; rw [e']; exact congrArg (· + 1) q3
    · rw [ht']; show s3.initialElitist = _; rw [e']; exact q4
    · rw [ht']; exact h3c
    · rw [ht']; show s3.sol.maxHist = _; rw [e', eb, ht2s, e6, e5, e1]
    · rw [ht', ← hev, e4]; rfl
    · rw [ht', ← hev, e4]; rfl
    · rw [ht', ← hev, e4]; rfl
    · rw [ht', ← hev, e4]; rfl
    · rw [ht', ← hev, e4]; rfl
    · rw [ht']; show s3.calls = _; rw [e']; exact q6
    · rw [ht']; show s3.nevals = _; rw [e']; exact q7
    · refine ⟨by rw [hclen, hpl], s2.sol.cands, q5, ?_, ?_, ?_, ?_, ?_, ?_⟩
      · have h1 : t'.s.sol.cands = cs' := by rw [ht']; show s3.sol.cands = _; rw [e', eb]
        rw [h1, ← ht2s]
        exact (stableSort_eq_ok (hsort (by rw [ht2s, q1]; exact huh))).2.perm
      · rw [ht', ← hev, e4]; rfl
      · intro hel
        obtain ⟨c1, c', a1, a2, a3, a4⟩ := Strat.eval_answers (env := env) hs1uh
          (by rw [e5, e1]; exact hel) (by rw [e5, e1, hpl]; exact hlen)
          (by rw [← hph]; unfold Strat.phenoCols; rw [e5]) hs2
        have : c1 = c := by
          have := q6.symm.trans a1
          rw [e5, e1] at this
          simpa using this.symm
        subst this
        refine ⟨c', a2, ?_, ?_⟩
        · intro hm; exact a3 (by rw [e5, e1]; exact hm)
        · have b1 : t1.s.negate = t.s.negate := by rw [e5, e1]
          have b2 : t1.s.p.gp = t.s.p.gp := by rw [e5, e1]
          rw [b1, b2] at a4
          exact a4
      · intro hcd
        obtain ⟨e, he, k', hk1, hk2, hk3⟩ := g1 (by rw [e1]; exact hcd)
        refine ⟨s1.sol, e, by rw [e1], ?_, ?_, ?_, ?_, ?_⟩
        · rw [← he]
          have : (({ t with s := s1 } : Surr n M).setCrit 10 true).s.sol.cands = t.s.sol.cands := by
            show s1.sol.cands = _; rw [e1]
          rw [this]; rfl
        · rw [ht', ← hev, hk1]; rfl
        · rw [ht', ← hev, hk1]; rfl
        · intro ha
          have := hk2 ha
          rw [ht', ← hev, hk1]
          exact this
        · intro ha
          have := hk3 ha
          rw [ht', ← hev, hk1]
          exact this
      · intro hcd
        have := g2 (by rw [e1]; exact hcd)
        rw [ht', ← hev, this]
        exact ⟨rfl, rfl⟩
      · intro hon b hr h2
        exact eval_elitist hs1uh (by rw [e5, e1]; exact hon) (by rw [e5, e1]; exact hr)
          (by rw [e5, e1, hpl]; exact hlen.symm) (by rw [hpl]; exact h2) hs2

/-! ### How long the model is used -/

theorem trueEval_false {t : Surr n M} (h : t.trueEval = .ok false) :
    t.exploit = true ∧ t.full = true ∧ ¬ t.nsteps ∣ (t.s.niter : ℤ) := by
  unfold trueEval at h
  split_ifs at h with a b
  · exact absurd (Except.ok.inj h) (by simp)
  replace h := Except.ok.inj h
  simp only [Bool.or_eq_false_iff, decide_eq_false_iff_not, Bool.not_eq_false'] at h
  refine ⟨by simpa using a, h.2, fun hd => h.1 (Int.tmod_eq_zero_of_dvd hd)⟩

theorem simpleGenerations_wait {env : Env n} {sf : SurrFuncs n M} (honly : OnlyValues sf) (j : ℕ) {t t' : Surr n M}
    (huh : t.s.p.uh = false) (hgr : t.s.p.withGradient = false) (hlen : t.s.sol.cands.length = t.s.p.lambda)
    (h : t.simpleGenerations env sf j = .ok t') :
    t.s.calls.length ≤ t'.s.calls.length ∧
    ((∃ i < j, t.nsteps ∣ (t.s.niter : ℤ) + i) → t.s.calls.length + t.s.p.lambda ≤ t'.s.calls.length) := by
  induction j generalizing t with
  | zero =>
    injection h with h
    subst h
    exact ⟨le_refl _, fun ⟨i, hi, _⟩ => absurd hi (by omega)⟩
  | succ j ih =>
    unfold simpleGenerations at h
    obtain ⟨t1, h1, h⟩ := Out.bind_eq_ok.1 h
    obtain ⟨b, c, hs⟩ := simpleGeneration_step honly huh hgr hlen h1
    obtain ⟨i1, i2⟩ := ih (t := t1) (by rw [hs.p]; exact huh) (by rw [hs.p]; exact hgr)
      (by rw [hs.cands, hs.p]; exact hlen) h
    have hcl : t1.s.calls.length = t.s.calls.length + c.length := by rw [hs.calls, List.length_append]
    refine ⟨by omega, fun ⟨i, hi, hd⟩ => ?_⟩
    cases b with
    | true => have := (hs.busy rfl).1; omega
    | false =>
      have hq := hs.trueEval
      have hnd := (trueEval_false hq).2.2
      obtain ⟨_, _, _, hns⟩ := hs.quiet rfl
      cases i with
      | zero => exact absurd (by simpa using hd) hnd
      | succ i =>
        have := i2 ⟨i, by omega, by
          rw [hns, hs.niter]
          push_cast at hd ⊢
          rw [add_assoc, add_comm (1 : ℤ)]
          exact hd⟩
        rw [hs.p] at this
        omega

/-- A generation without exploitation. -/
theorem unexploited {env : Env n} {sf : SurrFuncs n M} {t t' : Surr n M} (hx : t.exploit = false)
    (hc : setCriteriaActive t.s.crit 10 true = t.s.crit) (h : t.simpleGeneration env sf = .ok t') :
    t.s.generation env = .ok t'.s ∧ t'.exploit = false ∧ t'.s.crit = t.s.crit := by
  unfold simpleGeneration at h
  obtain ⟨⟨pop, s1⟩, hask, h⟩ := Out.bind_eq_ok.1 h
  obtain ⟨phen, hph, h⟩ := Out.bind_eq_ok.1 h
  obtain ⟨t2, hev, h⟩ := Out.bind_eq_ok.1 h
  obtain ⟨t3, htl, h⟩ := Out.bind_eq_ok.1 h
  injection h with h
  obtain ⟨⟨es, ei, ue, c0, nz, x1, x2, p1, p2, e1⟩, hpl⟩ := Strat.ask_frame hask
  unfold simpleEval at hev
  have htr : ({ t with s := s1 } : Surr n M).trueEval = .ok true := by
    unfold trueEval
    rw [if_pos (by simp [hx])]
  rw [htr, Out.ok_bind, if_pos rfl] at hev
  obtain ⟨t1, hte, hev⟩ := Out.bind_eq_ok.1 hev
  obtain ⟨g1, g2⟩ := simpleTest_ok hte
  have hfr : ∃ te sm k, t1 = { ({ t with s := s1 } : Surr n M).setCrit 10 true with
      testErr := te, smooth := sm, nsteps := k } := by
    by_cases hcd : ((({ t with s := s1 } : Surr n M).setCrit 10 true).s.niter ≠ 0 ∧
        (({ t with s := s1 } : Surr n M).setCrit 10 true).full = true)
    · obtain ⟨e, _, k, he, _⟩ := g1 hcd
      exact ⟨_, _, k, he⟩
    · exact ⟨_, _, _, g2 hcd⟩
  obtain ⟨te, sm, k, e4⟩ := hfr
  have e5 : t1.s = s1 := by
    rw [e4]
    show { s1 with crit := setCriteriaActive s1.crit 10 true } = s1
    have : s1.crit = t.s.crit := by rw [e1]
    rw [this, hc, ← this]
  unfold evalAndCollect at hev
  obtain ⟨s2, hs2, hev⟩ := Out.bind_eq_ok.1 hev
  injection hev with hev
  rw [foldl_add] at hev
  rw [e5] at hs2
  obtain ⟨s3, m, htl, e3⟩ := simpleTell_ok htl
  have ht2 : t2.s = s2 := by rw [← hev]
  rw [ht2] at htl
  have ht3 : t'.s = s3.incIter := by rw [← h, e3]
  refine ⟨?_, ?_, ?_⟩
  · unfold Strat.generation
    rw [hask, Out.ok_bind]
    simp only
    rw [hph, Out.ok_bind, hs2, Out.ok_bind, htl, ht3]
    rfl
  · rw [← h, e3, ← hev, e4]; exact hx
  · obtain ⟨c, nu, nzuh, lr, cu, cs, e6, _⟩ := Strat.eval_frame hs2
    obtain ⟨_, _, _, _, _, _, _, _, _, _, _, _, _, _, _, _, _, _, _, _, _, _, _, e'⟩ := Strat.tell_frame htl
    rw [ht3]
    show s3.crit = _
    rw [e', e6, e1]

end Surr

end Libcmaes
