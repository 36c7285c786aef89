import Verif.Lemmas.SurrError

/-! # When a generation of a simple surrogate strategy cannot fail -/

namespace Libcmaes

open Spec

variable {n : ℕ} {M : Type}

namespace Surr

/-- Candidates with the predicted values. -/
def predicted (g : Vec n → FVal) (cs : List (Cand n)) : List (Cand n) :=
  cs.map fun c => { c with fvalue := g c.x }

theorem predicted_x (g : Vec n → FVal) (cs : List (Cand n)) : (predicted g cs).map (·.x) = cs.map (·.x) := by
  unfold predicted; rw [List.map_map]; rfl

/-- The exploitation loop with a pointwise prediction function. -/
theorem exploitFold_pointwise {sf : SurrFuncs n M} {g} (hp : Pointwise sf g) (qs : List (Vec n × ℕ))
    {t : Surr n M} (hq : ∀ q ∈ qs, q.2 < t.s.sol.cands.length) :
    ∃ cs, qs.foldlM (exploitOne sf) t = .ok { t with s := { t.s with sol := { t.s.sol with cands := cs } } } ∧
      cs.length = t.s.sol.cands.length ∧
      cs.map (·.x) = qs.foldl (fun l q => l.set q.2 q.1) (t.s.sol.cands.map (·.x)) ∧
      (qs ≠ [] → ∃ cs0, cs = predicted (g t.m t.tset { t.s.sol with cands := cs0 }) cs0) := by
  induction qs generalizing t with
  | nil => exact ⟨t.s.sol.cands, rfl, rfl, rfl, fun h => absurd rfl h⟩
  | cons q qs ih =>
    have hq0 := hq q (by simp)
    set cs0 := t.s.sol.cands.set q.2 { t.s.sol.cands[q.2] with x := q.1 } with hcs0
    have h1 : exploitOne sf t q = .ok { t with s := { t.s with sol := { t.s.sol with
        cands := predicted (g t.m t.tset { t.s.sol with cands := cs0 }) cs0 } } } := by
      unfold exploitOne
      have : at! t.s.sol.cands q.2 = .ok t.s.sol.cands[q.2] := by
        rw [at!_eq_ok, List.getElem?_eq_getElem hq0]
      rw [this, Out.ok_bind]
      simp only
      rw [hp, Out.ok_bind]
      rfl
    obtain ⟨cs, e, hl, hx, hg⟩ := ih (t := { t with s := { t.s with sol := { t.s.sol with
        cands := predicted (g t.m t.tset { t.s.sol with cands := cs0 }) cs0 } } }) (by
      intro q' hq'
      have := hq q' (by simp [hq'])
      simpa [predicted, hcs0] using this)
    refine ⟨cs, ?_, ?_, ?_, fun _ => ?_⟩
    · rw [List.foldlM_cons, h1, Out.ok_bind, e]
    · rw [hl]; simp [predicted, hcs0]
    · rw [hx, List.foldl_cons]
      congr 1
      show (predicted _ cs0).map (·.x) = _
      rw [predicted_x, hcs0, List.map_set]
    · by_cases hqs : qs = []
      · subst hqs
        refine ⟨cs0, ?_⟩
        have e' : (pure _ : Out (Surr n M)) = _ := e
        injection e' with e'
        have := congrArg (fun u : Surr n M => u.s.sol.cands) e'
        exact this.symm
      · exact hg hqs

theorem foldl_set_zipIdx {α : Type} (cols l : List α) (k : ℕ) (pre : List α) (hk : pre.length = k)
    (h : cols.length = l.length) :
    (cols.zipIdx k).foldl (fun l q => l.set q.2 q.1) (pre ++ l) = pre ++ cols := by
  induction cols generalizing l k pre with
  | nil =>
    have : l = [] := List.eq_nil_of_length_eq_zero h.symm
    simp [this]
  | cons x cols ih =>
    cases l with
    | nil => simp at h
    | cons y l =>
      rw [List.zipIdx_cons, List.foldl_cons]
      have : (pre ++ y :: l).set k x = (pre ++ [x]) ++ l := by
        rw [List.set_append_right _ _ (by omega), hk]; simp
      simp only [this]
      rw [ih l (k + 1) (pre ++ [x]) (by simp [hk]) (by simpa using h)]
      simp

/-- `compute_lifelength` for errors in [0,1]. -/
theorem lifelength_ok {t : Surr n M} {v : ℝ} {k : ℤ} (hv : t.smooth = some v) (h0 : 0 ≤ v) (hterr : 0 < t.terr)
    (hnmax : 1 ≤ t.nmax) (h : t.lifelength = .ok k) :
    k = max 1 ⌊(t.terr - v) / t.terr * t.nmax⌋ + 1 ∧ 2 ≤ k ∧ k ≤ t.nmax + 1 := by
  unfold lifelength at h
  rw [hv] at h
  simp only at h
  rw [if_neg hterr.ne'] at h
  obtain ⟨i, hi, h⟩ := Out.bind_eq_ok.1 h
  have hi' : i = ⌊(t.terr - v) / t.terr * t.nmax⌋ := by
    unfold castInt at hi
    split_ifs at hi
    · injection hi with hi; rw [← hi, Int.floor_intCast]
    · injection hi with hi; rw [← hi, Int.ceil_intCast]
  split_ifs at h
  injection h with h
  rw [hi'] at h
  refine ⟨h.symm, by omega, ?_⟩
  have : ⌊(t.terr - v) / t.terr * t.nmax⌋ ≤ t.nmax := by
    have h1 : (t.terr - v) / t.terr * t.nmax ≤ t.nmax := by
      have hn : (0 : ℝ) ≤ t.nmax := by exact_mod_cast (by omega : (0 : ℤ) ≤ t.nmax)
      have : (t.terr - v) / t.terr ≤ 1 := by rw [div_le_one hterr]; linarith
      nlinarith
    exact_mod_cast (Int.floor_le _).trans h1
  omega

theorem lifelength_total {t : Surr n M} {v : ℝ} (hv : t.smooth = some v) (h0 : 0 ≤ v) (h1 : v ≤ 1)
    (hterr : 0 < t.terr) (hnmax : 1 ≤ t.nmax) (hint : t.nmax < 2147483647)
    (hq : (t.nmax : ℝ) / t.terr < 2147483647) : ∃ k, t.lifelength = .ok k := by
  unfold lifelength
  rw [hv]
  simp only
  rw [if_neg hterr.ne']
  have hn : (0 : ℝ) < t.nmax := by exact_mod_cast (by omega : (0 : ℤ) < t.nmax)
  have hle : ⌊(t.terr - v) / t.terr * t.nmax⌋ ≤ t.nmax := by
    have h1 : (t.terr - v) / t.terr * t.nmax ≤ t.nmax := by
      have : (t.terr - v) / t.terr ≤ 1 := by rw [div_le_one hterr]; linarith
      nlinarith
    exact_mod_cast (Int.floor_le _).trans h1
  have hge : -2147483648 ≤ ⌊(t.terr - v) / t.terr * t.nmax⌋ := by
    rw [Int.le_floor]
    have e : (t.terr - v) / t.terr * t.nmax = t.nmax - v * (t.nmax / t.terr) := by field_simp
    rw [e]
    have hp : 0 < (t.nmax : ℝ) / t.terr := by positivity
    push_cast
    nlinarith
  have hc : ∃ i, castInt ((⌊(t.terr - v) / t.terr * t.nmax⌋ : ℤ) : ℝ) = .ok i ∧ i ≤ t.nmax := by
    unfold castInt
    have a1 : (-2147483649 : ℝ) < (⌊(t.terr - v) / t.terr * t.nmax⌋ : ℤ) := by
      exact_mod_cast (by omega : (-2147483649 : ℤ) < ⌊(t.terr - v) / t.terr * t.nmax⌋)
    have a2 : ((⌊(t.terr - v) / t.terr * t.nmax⌋ : ℤ) : ℝ) < 2147483648 := by
      exact_mod_cast (by omega : ⌊(t.terr - v) / t.terr * t.nmax⌋ < (2147483648 : ℤ))
    rw [if_pos ⟨a1, a2⟩]
    refine ⟨_, rfl, ?_⟩
    split_ifs
    · rw [Int.floor_intCast]; exact hle
    · rw [Int.ceil_intCast]; exact hle
  obtain ⟨i, hi, hle'⟩ := hc
  rw [hi, Out.ok_bind, if_neg (by omega)]
  exact ⟨_, rfl⟩

theorem onlyValues_of_pointwise {sf : SurrFuncs n M} {g} (hp : Pointwise sf g) : OnlyValues sf := by
  intro m ts sol l l' h
  rw [hp] at h
  injection h with h
  subst h
  rw [List.forall₂_map_right_iff]
  exact List.forall₂_same.2 fun c _ => ⟨rfl, rfl⟩

/-- What makes the next generation of a simple surrogate strategy succeed. -/
structure SimpleLive (t : Surr n M) : Prop where
  live : Live t.s
  ref : RefNum t.s
  num : t.s.niter ≠ 0 → NoNaN t.s.sol.cands
  smooth : ∃ v, t.smooth = some v ∧ 0 ≤ v ∧ v ≤ 1
  nsteps : t.nsteps ≠ 0
  terr : 0 < t.terr
  nmax : 1 ≤ t.nmax
  nmax_lt : t.nmax < 2147483647
  ratio : (t.nmax : ℝ) / t.terr < 2147483647

theorem trueEval_total {t : Surr n M} (h : t.nsteps ≠ 0) : ∃ b, t.trueEval = .ok b := by
  unfold trueEval
  split_ifs
  · exact ⟨_, rfl⟩
  · exact ⟨_, rfl⟩

theorem simpleDoTrain_total {t : Surr n M} (h : t.nsteps ≠ 0) : ∃ b, t.simpleDoTrain = .ok b := by
  unfold simpleDoTrain
  split_ifs
  · exact ⟨_, rfl⟩
  · exact ⟨_, rfl⟩
  · exact ⟨_, rfl⟩

theorem simpleTest_total {env : Env n} {sf : SurrFuncs n M} {g} {t : Surr n M} (hS : Sane env sf g)
    (hk : 2 ≤ t.s.sol.cands.length)
    (num : t.s.niter ≠ 0 → NoNaN t.s.sol.cands) (smooth : ∃ v, t.smooth = some v ∧ 0 ≤ v ∧ v ≤ 1)
    (nsteps : t.nsteps ≠ 0) (terr : 0 < t.terr) (nmax : 1 ≤ t.nmax) (nmax_lt : t.nmax < 2147483647)
    (ratio : (t.nmax : ℝ) / t.terr < 2147483647) :
    ∃ te sm k, t.simpleTest sf = .ok { t with testErr := te, smooth := sm, nsteps := k } ∧ k ≠ 0 ∧
      ∃ v, sm = some v ∧ 0 ≤ v ∧ v ≤ 1 := by
  unfold simpleTest
  by_cases hc : t.s.niter ≠ 0 ∧ t.full = true
  · rw [if_pos hc]
    obtain ⟨ctest, _, _, he⟩ := computeError_pointwise hS.predict (t := t) hk (num hc.1)
    obtain ⟨e, h1, h2, h3⟩ := computeError_ok (onlyValues_of_pointwise hS.predict) hk he
    rw [h1] at he
    rw [he, Out.ok_bind]
    obtain ⟨v, hv, v0, v1⟩ := smooth
    obtain ⟨w, hw, w0, w1⟩ := setTestError_range hv v0 v1 h2 h3
    have ha : (t.setTestError (some e)).autoNsteps = t.autoNsteps := rfl
    simp only [ha]
    cases hau : t.autoNsteps with
    | true =>
      rw [if_pos rfl]
      obtain ⟨k, hk⟩ := lifelength_total (t := t.setTestError (some e)) hw w0 w1 terr nmax nmax_lt ratio
      rw [hk, Out.ok_bind]
      have hk2 := (lifelength_ok (t := t.setTestError (some e)) hw w0 terr nmax hk).2.1
      refine ⟨some e, (t.setTestError (some e)).smooth, k, ?_, by omega, w, hw, w0, w1⟩
      rw [← hau]; rfl
    | false =>
      rw [if_neg (by simp)]
      refine ⟨some e, (t.setTestError (some e)).smooth, t.nsteps, ?_, nsteps, w, hw, w0, w1⟩
      rw [← hau]; rfl
  · rw [if_neg hc]
    exact ⟨t.testErr, t.smooth, t.nsteps, rfl, nsteps, smooth⟩

/-- A generation of a simple surrogate strategy succeeds, if the transform does. -/
theorem simpleGeneration_total {env : Env n} {sf : SurrFuncs n M} {g} {t : Surr n M} (hS : Sane env sf g)
    (hgp : ∀ x : Vec n, ∃ y, phenoV t.s.p.gp x = .ok y) (hL : SimpleLive t) :
    ∃ t', t.simpleGeneration env sf = .ok t' ∧ SimpleLive t' := by
  have honly := onlyValues_of_pointwise hS.predict
  obtain ⟨pop, s1, hask, hR⟩ := hL.live.toLiveCore.ready (env := env) hL.live.moved
  obtain ⟨⟨es, ei, ue, c0, nz, x1, x2, p1, p2, e1⟩, hpl⟩ := Strat.ask_frame hask
  obtain ⟨phen, hph⟩ : ∃ phen, s1.phenoCols pop = .ok phen := Out.mapM_ok_of fun x _ => by
    rw [e1]; exact hgp x
  have hphl : phen.length = pop.length := (Out.mapM_length hph).symm
  have hl2 := hL.live.good.lambda
  have hcl := hL.live.cands
  -- it is enough that the evaluation succeeds, with comparable values
  suffices hev : ∃ t2 : Surr n M, ({ t with s := s1 } : Surr n M).simpleEval env sf pop phen = .ok t2 ∧
      (∃ cl ne nu nz lr cr cu cs sne, t2.s = { s1 with
        calls := cl, nevals := ne, nu := nu, nzuh := nz, crit := cr,
        sol := { s1.sol with lambdaReev := lr, nevals := sne, candsUh := cu, cands := cs } } ∧
        NoNaN cs ∧ cs.length = t.s.p.lambda) ∧
      t2.nsteps ≠ 0 ∧ (∃ v, t2.smooth = some v ∧ 0 ≤ v ∧ v ≤ 1) ∧ t2.terr = t.terr ∧ t2.nmax = t.nmax by
    obtain ⟨t2, hev, ⟨cl, ne, nu, nz', lr, cr, cu, cs, sne, e2, hnum, hcsl⟩, g1, g2, g3, g4⟩ := hev
    have hR2 : Ready env t2.s := by rw [e2]; exact hR.change
    have ep2 : t2.s.p = t.s.p := by rw [e2, e1]
    have ec2 : t2.s.sol.cands = cs := by rw [e2]
    obtain ⟨cs', hcs'⟩ : ∃ cs', stableSort candLt t2.s.sol.cands = .ok cs' := by
      unfold stableSort; rw [if_pos (by rw [ec2]; exact strictWeakOn_of_noNaN hnum)]; exact ⟨_, rfl⟩
    have hperm := (stableSort_eq_ok hcs').2.perm
    have hrk : t2.s.rank env = .ok { t2.s with sol := { t2.s.sol with cands := cs' } } := by
      unfold Strat.rank
      rw [if_neg (by rw [ep2, hL.live.uh]; simp)]
      unfold Sol.sortCandidates
      rw [hcs']; rfl
    obtain ⟨s3, htl, h3⟩ := hR2.tell hrk (by
      show cs'.length = _
      rw [hperm.length_eq, ep2, ec2, hcsl])
    obtain ⟨b, hb⟩ := simpleDoTrain_total (t := { t2 with s := s3 }) g1
    obtain ⟨m', hm'⟩ : ∃ m', t2.simpleTell env sf = .ok { t2 with s := s3, m := m' } := by
      unfold simpleTell
      rw [htl, Out.ok_bind]
      simp only
      rw [hb, Out.ok_bind]
      cases b
      · rw [if_neg (by simp)]; exact ⟨_, rfl⟩
      · rw [if_pos rfl]
        obtain ⟨m', hm'⟩ := hS.train t2.m t2.tset s3.sol
        rw [hm']; exact ⟨_, rfl⟩
    refine ⟨{ t2 with s := s3.incIter, m := m' }, ?_, ?_⟩
    · unfold simpleGeneration
      rw [hask, Out.ok_bind]
      simp only
      rw [hph, Out.ok_bind, hev, Out.ok_bind, hm']
      rfl
    · obtain ⟨cs1, cu', su, ts, sol3, hs, hbst, csq, hc, sc, ps, hs', pc, cov, sep, v, sg, xp, xm, mx, mn, lv, le,
        e3⟩ := Strat.tell_frame htl
      obtain ⟨_, _, _, _, _, _, _, _, eb, _⟩ := Sol.updateBest_ok hbst
      have ecs1 : cs1 = cs' := by
        have := hs (by rw [ep2]; exact hL.live.uh)
        rw [hcs'] at this; injection this with this; exact this.symm
      have ep3 : s3.p = t.s.p := by rw [e3]; exact ep2
      refine ⟨⟨h3, ?_, ?_⟩, ⟨fun c hc => ?_, fun c hc => ?_⟩, fun _ => ?_, g2, g1, ?_, ?_, ?_, ?_⟩
      · show s3.p.uh = false; rw [ep3]; exact hL.live.uh
      · show s3.p.tpa ≠ 2; rw [ep3]; exact hL.live.tpa
      · have e : s3.incIter.sol.bestSeen = sol3.bestSeen := by rw [e3]; rfl
        rw [show ({ t2 with s := s3.incIter, m := m' } : Surr n M).s.sol.bestSeen = sol3.bestSeen from e] at hc
        rcases (updateBest_seen hbst).2 c hc with h | h
        · refine hnum c ?_
          rw [← ec2]
          exact hperm.mem_iff.1 (ecs1 ▸ h)
        · refine hL.ref.1 c ?_
          rw [e2, e1] at h
          exact h
      · refine hL.ref.2 c ?_
        have e : s3.incIter.sol.initialCand = t.s.sol.initialCand := by rw [e3, eb, e2, e1]; rfl
        exact e ▸ hc
      · have e : s3.incIter.sol.cands = cs' := by rw [e3, eb]; exact ecs1
        intro c hc
        have hc' : c ∈ s3.incIter.sol.cands := hc
        rw [e] at hc'
        exact hnum c (ec2 ▸ hperm.mem_iff.1 hc')
      · rw [show ({ t2 with s := s3.incIter, m := m' } : Surr n M).terr = t.terr from g3]; exact hL.terr
      · rw [show ({ t2 with s := s3.incIter, m := m' } : Surr n M).nmax = t.nmax from g4]; exact hL.nmax
      · rw [show ({ t2 with s := s3.incIter, m := m' } : Surr n M).nmax = t.nmax from g4]; exact hL.nmax_lt
      · rw [show ({ t2 with s := s3.incIter, m := m' } : Surr n M).nmax = t.nmax from g4,
          show ({ t2 with s := s3.incIter, m := m' } : Surr n M).terr = t.terr from g3]
        exact hL.ratio
  obtain ⟨b, hb⟩ := trueEval_total (t := ({ t with s := s1 } : Surr n M)) hL.nsteps
  unfold simpleEval
  rw [hb, Out.ok_bind]
  have hc1 : s1.sol.cands = t.s.sol.cands := by rw [e1]
  have hp1 : s1.p = t.s.p := by rw [e1]
  cases b with
  | false =>
    rw [if_neg (by simp)]
    obtain ⟨cs, h1, h2, h3, h4⟩ := exploitFold_pointwise hS.predict pop.zipIdx
      (t := ({ t with s := s1 } : Surr n M).setCrit 10 false) (by
        intro q hq
        have := (List.mem_zipIdx hq).2.1
        show q.2 < s1.sol.cands.length
        rw [hc1, hcl]; omega)
    have hne : pop.zipIdx ≠ [] := by
      intro h
      have : pop.length = 0 := by rw [← List.length_zipIdx (l := pop) (i := 0), h]; rfl
      omega
    obtain ⟨cs0, h4⟩ := h4 hne
    refine ⟨_, h1, ⟨s1.calls, s1.nevals, s1.nu, s1.nzuh, s1.sol.lambdaReev, _, s1.sol.candsUh, cs, s1.sol.nevals,
      rfl, ?_, ?_⟩, hL.nsteps, hL.smooth, rfl, rfl⟩
    · intro c hc
      rw [h4] at hc
      obtain ⟨d, _, rfl⟩ := List.mem_map.1 hc
      exact hS.num_g _ _ _ _
    · rw [h2]; show s1.sol.cands.length = _; rw [hc1, hcl]
  | true =>
    rw [if_pos rfl]
    obtain ⟨te, sm, k, h1, h2, h3⟩ := simpleTest_total (t := ({ t with s := s1 } : Surr n M).setCrit 10 true) hS
      (by show 2 ≤ s1.sol.cands.length; rw [hc1, hcl]; exact hl2)
      (by
        intro h
        show NoNaN s1.sol.cands
        rw [hc1]
        refine hL.num ?_
        have h' : s1.niter ≠ 0 := h
        rw [e1] at h'
        exact h') hL.smooth hL.nsteps hL.terr hL.nmax hL.nmax_lt hL.ratio
    rw [h1, Out.ok_bind]
    set t1 : Surr n M := { ({ t with s := s1 } : Surr n M).setCrit 10 true with
      testErr := te, smooth := sm, nsteps := k } with ht1
    have e5 : t1.s = { s1 with crit := setCriteriaActive s1.crit 10 true } := rfl
    obtain ⟨s2, hs2⟩ := Strat.eval_total (env := env) (s := t1.s) (cols := pop) (phen := phen)
      (by rw [e5, e1]; exact hL.live.uh) (by rw [e5, e1]; exact hl2) (by rw [e5, e1]; exact hcl)
      (by rw [e5, e1]; exact hpl) (by rw [e5, e1, hphl]; exact hpl) (by
        intro hel
        rw [e5, e1] at hel ⊢
        exact hL.live.toLiveCore.elitist hel)
    unfold evalAndCollect
    rw [hs2, Out.ok_bind]
    obtain ⟨c, nu, nzuh, lr, cu, cs, e6, hcs, _, _⟩ := Strat.eval_frame hs2
    refine ⟨_, rfl, ?_, ?_, ?_, ?_, ?_⟩
    · rw [foldl_add]
      show ∃ cl ne nu nz lr cr cu cs sne, s2 = _ ∧ _
      have ec : s2.sol.cands = cs := by rw [e6]
      refine ⟨_, _, _, _, _, _, _, cs, _, by rw [e6, e5], ?_, ?_⟩
      · rw [← ec]
        refine eval_noNaN (by rw [e5, e1]; exact hL.live.uh) ?_ hS.num_f ?_ hs2
        · rw [e5]; show s1.sol.cands.length ≤ _; rw [hc1, hcl, hpl]
        · rw [e5, e1]; exact hL.ref
      · rw [hcs, e5]; show s1.sol.cands.length = _; rw [hc1, hcl]
    · rw [foldl_add]; exact h2
    · rw [foldl_add]; exact h3
    · rw [foldl_add]; rfl
    · rw [foldl_add]; rfl

theorem simpleGenerations_total {env : Env n} {sf : SurrFuncs n M} {g} {t : Surr n M} (hS : Sane env sf g)
    (hgp : ∀ x : Vec n, ∃ y, phenoV t.s.p.gp x = .ok y) (hL : SimpleLive t) (k : ℕ) :
    ∃ t', t.simpleGenerations env sf k = .ok t' ∧ SimpleLive t' := by
  induction k generalizing t with
  | zero => exact ⟨t, rfl, hL⟩
  | succ k ih =>
    obtain ⟨t1, h1, h2⟩ := simpleGeneration_total hS hgp hL
    obtain ⟨b, c, hstep⟩ := simpleGeneration_step (onlyValues_of_pointwise hS.predict) hL.live.uh hL.live.grad
      hL.live.cands h1
    obtain ⟨t2, h3, h4⟩ := ih (t := t1) (by rw [hstep.p]; exact hgp) h2
    exact ⟨t2, by unfold simpleGenerations; rw [h1, Out.ok_bind]; exact h3, h4⟩

/-- A strategy at the start. -/
theorem simpleStart_ok {env : Env n} {kind : CovKind} {p : Params n} {m : M} {t : Surr n M}
    (h : SimpleStart env kind p m t) : (∃ s cr, Strat.new env kind p = .ok s ∧ t.s = { s with crit := cr } ∧
        cr = setCriteriaActive (setCriteriaActive s.crit 6 false) 7 false) ∧
      t.m = m ∧ t.tset = [] ∧ t.smooth = some 0.5 ∧ t.nsteps ≠ 0 ∧ t.terr = 0.45 ∧ t.nmax = 20 := by
  induction h with
  | new h =>
    unfold newSimple new at h
    obtain ⟨t0, h0, h⟩ := Out.bind_eq_ok.1 h
    obtain ⟨s, hs, h0⟩ := Out.bind_eq_ok.1 h0
    injection h with h
    injection h0 with h0
    subst h0; subst h
    exact ⟨⟨s, _, hs, rfl, rfl⟩, rfl, rfl, rfl, by show (1 : ℤ) ≠ 0; norm_num, rfl, rfl⟩
  | setL l _ ih => exact ih
  | setExploit b _ ih => exact ih
  | setNsteps k hk _ ih => exact ⟨ih.1, ih.2.1, ih.2.2.1, ih.2.2.2.1, hk, ih.2.2.2.2.2⟩

theorem simpleLive_start {env : Env n} {kind : CovKind} {p : Params n} {m : M} {t : Surr n M} (hu : Usual kind p)
    (h : SimpleStart env kind p m t) : SimpleLive t := by
  obtain ⟨⟨s, cr, hs, e, _⟩, h1, h2, h3, h4, h5, h6⟩ := simpleStart_ok h
  obtain ⟨hL, hr⟩ := live_new hu hs
  have h0 : t.s.niter = 0 := by rw [e]; exact (Strat.new_ok hs).2.2.2.2.2.2.1
  refine ⟨?_, ?_, fun h => absurd h0 h, ⟨_, h3, by norm_num, by norm_num⟩, h4, by rw [h5]; norm_num,
    by rw [h6]; norm_num, by rw [h6]; norm_num, by rw [h5, h6]; norm_num⟩
  · rw [e]
    exact ⟨⟨hL.good, hL.strict, hL.kind, hL.vd, hL.lazy, hL.grad, hL.tpaPos, hL.eig, hL.paths, hL.sigma, hL.cands,
      hL.kcand, hL.niter, hL.full, hL.sep, hL.seen, hL.init⟩, hL.uh, hL.tpa⟩
  · rw [e]; exact hr

theorem simpleStart_exists {env : Env n} {kind : CovKind} {p : Params n} {s : Strat n}
    (h : Strat.new env kind p = .ok s) (m : M) : ∃ t, SimpleStart env kind p m t := by
  have : ∃ t, newSimple env kind p m = .ok t := by
    unfold newSimple new
    rw [h, Out.ok_bind]
    exact ⟨_, rfl⟩
  obtain ⟨t, ht⟩ := this
  exact ⟨t, .new ht⟩

end Surr

end Libcmaes
