import Verif.Lemmas.SurrTrain

/-! # Replacing the user's functions of an ACM surrogate strategy by others that give the same results -/

namespace Libcmaes

open Spec

namespace Surr

variable {n : ℕ} {M : Type}

/-- Two models with the same sorting functions and random numbers. -/
structure SameTools (sf sf' : SurrFuncs n M) : Prop where
  usort : sf.usort = sf'.usort
  usortR : sf.usortR = sf'.usortR
  z0 : sf.z0 = sf'.z0
  z1 : sf.z1 = sf'.z1

/-- In state `m` both predict the same, for training sets of `k` numbered points. -/
def SamePrediction (sf sf' : SurrFuncs n M) (m : M) (k : ℕ) (b : Bool) : Prop :=
  ∀ (ts : List (Cand n)) (sol : Sol n) (l : List (Cand n)), ts.length = k → NoNaN ts → sol.hasCsq = b → l ≠ [] →
    sf.predict m ts sol l = sf'.predict m ts sol l

variable {env : Env n} {sf sf' : SurrFuncs n M} {t t' : Surr n M}

theorem computeError_swap (hT : SameTools sf sf') {k : ℕ} {b : Bool} (hP : SamePrediction sf sf' t.m k b)
    (hk : t.tset.length = k) (hn : NoNaN t.tset) (hb : t.s.sol.hasCsq = b) {test : List (Cand n)} (ht : test ≠ []) :
    t.computeError sf test = t.computeError sf' test := by
  unfold computeError
  rw [hT.usort]
  cases hu : unstableSort sf'.usort (fun a b => FVal.lt b.fvalue a.fvalue) test with
  | error e => rfl
  | ok c =>
    have hc : c ≠ [] := by
      rintro rfl
      exact ht (List.nil_perm.1 (unstableSort_ok hu).2.1)
    rw [Out.ok_bind, Out.ok_bind, hP _ _ _ hk hn hb hc]

theorem preSelect_swap (hT : SameTools sf sf') {k : ℕ} {b : Bool} (hP : SamePrediction sf sf' t.m k b)
    (hk : t.tset.length = k) (hn : NoNaN t.tset) (hb : t.s.sol.hasCsq = b) {cols : List (Vec n)} (hc : cols ≠ [])
    (fuel : ℕ) : t.preSelect sf fuel cols = t.preSelect sf' fuel cols := by
  unfold preSelect
  rw [hT.usortR, hT.z0]
  simp only
  rw [hP _ { t.s.sol with cands := cols.map fun x => ⟨FVal.ofReal 0, x, -1⟩ } _ hk hn hb (by simpa using hc)]

theorem push_length {l : ℤ} {ts : List (Cand n)} (cs : List (Cand n)) (h : l ≤ ts.length) (h1 : (ts.length : ℤ) ≤ l) :
    (cs.foldl (push l) ts).length = ts.length := by
  induction cs generalizing ts with
  | nil => rfl
  | cons c cs ih =>
    have : (push l ts c).length = ts.length := by
      unfold push
      rw [if_pos (by simp; omega)]
      simp
    rw [List.foldl_cons, ih (by omega) (by omega), this]

theorem answers_num {neg : Bool} {gp : GenoPheno} {ds : List (Cand n)} {c : List (Vec n × FVal)}
    (hf : ∀ k y, (env.f k y).IsNum) (ha : List.Forall₂ (Answers neg gp) ds c)
    (ht : ∀ q ∈ c, ∃ k, q.2 = env.f k q.1) : NoNaN ds := by
  induction ha with
  | nil => intro _ h; cases h
  | @cons d q ds c h _ ih =>
    intro e he
    rcases List.mem_cons.1 he with rfl | he
    · obtain ⟨k, hk⟩ := ht q (by simp)
      have := hf k q.1
      rw [h.2, hk]
      cases neg with
      | false => exact this
      | true =>
        cases hv : env.f k q.1 with
        | nan => rw [hv] at this; exact this
        | num v => trivial
    · exact ih (fun q hq => ht q (by simp [hq])) e he

theorem evalSelected_swap (hT : SameTools sf sf') {k : ℕ} {b : Bool} (hP : SamePrediction sf sf' t.m k b)
    (hf : ∀ k y, (env.f k y).IsNum) (hk : t.tset.length = k) (hl : (k : ℤ) = t.l) (hn : NoNaN t.tset)
    (hb : t.s.sol.hasCsq = b) {nc : List (RCand n)} (hpos : 0 < nc.length) {fuel : ℕ}
    (h : t.evalSelected env sf' fuel nc = .ok (some t')) : t.evalSelected env sf fuel nc = .ok (some t') := by
  have h0 := h
  unfold evalSelected at h ⊢
  rw [hT.usortR, hT.z1]
  obtain ⟨o, ho, h⟩ := Out.bind_eq_ok.1 h
  rw [ho, Out.ok_bind]
  rcases o with _ | ⟨js, k'⟩
  · exact h
  simp only at h ⊢
  obtain ⟨d1, d2, d3, d4⟩ := drawDistinct_ok (acc := [0]) (List.nodup_singleton 0)
    (by intro a ha; rw [List.mem_singleton] at ha; omega) ho
  obtain ⟨⟨t1, nc1, test⟩, hfo, h⟩ := Out.bind_eq_ok.1 h
  rw [hfo, Out.ok_bind]
  obtain ⟨nc3, hs3, h⟩ := Out.bind_eq_ok.1 h
  simp only at hs3 ⊢
  rw [hs3, Out.ok_bind]
  obtain ⟨c, ds, a1, a2, a3, a4, a5, a6, a7⟩ := acmEvalFold_ok d2 hfo
  simp only [List.nil_append] at a1 a2 a3 a4 a5 a6
  subst a3
  have hne : test ≠ [] := by
    rintro rfl
    have := a5.length_eq
    simp only [List.length_nil] at this
    rw [this] at d4
    simp at d4
    omega
  have hm : t1.m = t.m := by rw [a2]
  have hts : t1.tset = test.foldl (push t.l) t.tset := by rw [a2]
  rw [computeError_swap hT (k := k) (b := b) (by rw [hm]; exact hP)
    (by rw [hts, push_length _ (by omega) (by omega)]; exact hk)
    (by rw [hts]; exact noNaN_push hn (answers_num hf a1 a7)) (by rw [a2]; exact hb) hne]
  exact h

theorem acmEval_swap (hT : SameTools sf sf') {k : ℕ} {b : Bool}
    (hP : t.full = true → SamePrediction sf sf' t.m k b)
    (hf : ∀ k y, (env.f k y).IsNum) (hk : t.full = true → t.tset.length = k ∧ (k : ℤ) = t.l) (hn : NoNaN t.tset)
    (hb : t.s.sol.hasCsq = b) (hlam : 1 ≤ t.s.p.lambda) {cols phen : List (Vec n)} (hc : cols ≠ [])
    (hcs : t.s.sol.cands ≠ []) {fuel : ℕ}
    (h : t.acmEval env sf' fuel cols phen = .ok (some t')) : t.acmEval env sf fuel cols phen = .ok (some t') := by
  unfold acmEval at h ⊢
  by_cases he : (t.exploit && t.full) = true
  · have hfull : t.full = true := by revert he; cases t.full <;> simp
    rw [if_pos he] at h ⊢
    rw [preSelect_swap hT (hP hfull) (hk hfull).1 hn hb hc]
    obtain ⟨o, ho, h⟩ := Out.bind_eq_ok.1 h
    rw [ho, Out.ok_bind]
    rcases o with _ | ⟨nc, t1⟩
    · exact h
    simp only at h ⊢
    obtain ⟨pr, srt, k', is, _, e1, _, _, _, _, q5, q6, _⟩ := preSelect_ok ho
    have hpos : 0 < nc.length := by
      have := q6.length_eq
      simp only [List.length_map] at this
      omega
    exact evalSelected_swap hT (k := k) (b := b) (by rw [e1]; exact hP hfull) hf (by rw [e1]; exact (hk hfull).1)
      (by rw [e1]; exact (hk hfull).2) (by rw [e1]; exact hn) (by rw [e1]; exact hb) hpos h
  · rw [if_neg he] at h ⊢
    by_cases hc' : t.s.niter ≠ 0 ∧ t.full = true
    · simp only [if_pos hc'] at h ⊢
      rw [computeError_swap hT (hP hc'.2) (hk hc'.2).1 hn hb hcs]
      exact h
    · simp only [if_neg hc'] at h ⊢
      exact h

/-- `acmTell` up to the training of the model. -/
noncomputable def acmCov (env : Env n) (t : Surr n M) : Out (Surr n M) := do
  let sol1 ← (if !t.exploit || !t.full then t.s.sol.sortCandidates else pure t.s.sol)
  let sol2 ← sol1.updateBest
  let sol3 ← covarianceUpdate env.eig t.s.kind t.s.p t.s.es sol2
  let s4 ← acmEigenv { t.s with sol := sol3 }
  pure { t with s := s4 }

/-- The training of the model, when the training set is full. -/
noncomputable def acmLearn (sf : SurrFuncs n M) (t : Surr n M) : Out (Surr n M) := do
  let m ← sf.train t.m t.tset t.s.sol
  let e ← ({ t with m := m } : Surr n M).computeError sf t.tset
  pure { t with m := m, trainErr := e }

theorem acmTell_eq (env : Env n) (sf : SurrFuncs n M) (t : Surr n M) : t.acmTell env sf = (t.acmCov env >>= fun t1 =>
    t1.acmDoTrain >>= fun b => if b then acmLearn sf t1 else .ok t1) := by
  unfold acmTell acmCov acmLearn
  simp only [bind_assoc]
  rfl

theorem acmCov_ok {t1 : Surr n M} (h : t.acmCov env = .ok t1) :
    ∃ s4, t1 = { t with s := s4 } ∧ s4.p = t.s.p ∧ s4.niter = t.s.niter := by
  unfold acmCov at h
  obtain ⟨sol1, h1, h⟩ := Out.bind_eq_ok.1 h
  obtain ⟨sol2, h2, h⟩ := Out.bind_eq_ok.1 h
  obtain ⟨sol3, h3, h⟩ := Out.bind_eq_ok.1 h
  obtain ⟨s4, h4, h⟩ := Out.bind_eq_ok.1 h
  obtain ⟨mx, mn, lv, le, e4⟩ := acmEigenv_frame h4
  refine ⟨s4, (Except.ok.inj h).symm, ?_, ?_⟩ <;> rw [e4]

theorem evalFrame {fuel : ℕ} {cols phen : List (Vec n)} (h : t.acmEval env sf fuel cols phen = .ok (some t')) :
    t'.m = t.m ∧ t'.l = t.l := by
  unfold acmEval at h
  split_ifs at h with he hc
  · obtain ⟨o, ho, h⟩ := Out.bind_eq_ok.1 h
    rcases o with _ | ⟨nc, t1⟩
    · injection h with h; cases h
    simp only at h
    obtain ⟨pr, srt, k', is, _, e1, _, _, _, _, q5, q6, _⟩ := preSelect_ok ho
    have hpos : 0 < nc.length := by
      have := q6.length_eq
      simp only [List.length_map] at this
      omega
    obtain ⟨c, ds, js, k, nc2, nc3, e, _, _, _, _, _, _, _, e2, _⟩ := evalSelected_ok hpos h
    rw [e2, e1]
    exact ⟨rfl, rfl⟩
  all_goals
    obtain ⟨t1, ht1, h⟩ := Out.bind_eq_ok.1 h
    obtain ⟨t2, ht2, h⟩ := Out.bind_eq_ok.1 h
    have h := Option.some.inj (Except.ok.inj h)
    unfold evalAndCollect at ht2
    obtain ⟨s, _, ht2⟩ := Out.bind_eq_ok.1 ht2
    have ht2 := Except.ok.inj ht2
    rw [foldl_add] at ht2
    have h1 : t1.m = t.m ∧ t1.l = t.l := by
      first
      | (obtain ⟨e, _, ht1⟩ := Out.bind_eq_ok.1 ht1
         rw [← Except.ok.inj ht1]; exact ⟨rfl, rfl⟩)
      | (rw [← Except.ok.inj ht1]; exact ⟨rfl, rfl⟩)
    rw [← h, ← ht2]
    exact h1

/-- One generation with other functions that predict the same: what differs is the training at the end. -/
theorem acmGeneration_swap (hT : SameTools sf sf') (hgr : t.s.p.withGradient = false)
    (hlen : t.s.sol.cands.length = t.s.p.lambda) (hlam : 1 ≤ t.s.p.lambda) (hl : 1 ≤ t.l) (hpre : 1 ≤ t.prelambda)
    (hfr : t.s.niter = 0 → t.tset = []) (hle : (t.tset.length : ℤ) ≤ t.l) (hn : NoNaN t.tset)
    (hf : ∀ k y, (env.f k y).IsNum)
    (hP : t.full = true → SamePrediction sf sf' t.m t.tset.length t.s.sol.hasCsq) {fuel : ℕ}
    (h : t.acmGeneration env sf' fuel = .ok (some t')) :
    ∃ t3 : Surr n M, t3.m = t.m ∧ t3.tset = t'.tset ∧ t3.l = t.l ∧ t3.s.sol = told t'.s.sol ∧
      (t3.full = true →
        t.acmGeneration env sf fuel = (acmLearn sf t3 >>= fun t4 => .ok (some { t4 with s := t4.s.incIter })) ∧
        ∃ t4, acmLearn sf' t3 = .ok t4 ∧ t' = { t4 with s := t4.s.incIter }) ∧
      (t3.full = false → t'.m = t.m ∧ t.acmGeneration env sf fuel = .ok (some t')) := by
  have hts : t.begun.tset = t.tset := begun_tset (by
    by_cases h0 : t.s.niter = 0
    · exact Or.inr (hfr h0)
    · exact Or.inl h0)
  obtain ⟨ts0, tr0, te0, sm0, pl0, e0⟩ := begun_frame t
  have hbf : t.begun.full = t.full := by
    unfold full
    rw [hts, e0]
  unfold acmGeneration at h ⊢
  obtain ⟨⟨pop, t1⟩, hask, h⟩ := Out.bind_eq_ok.1 h
  obtain ⟨phen, hph, h⟩ := Out.bind_eq_ok.1 h
  obtain ⟨o, ho, h⟩ := Out.bind_eq_ok.1 h
  rcases o with _ | t2
  · injection h with h; cases h
  simp only at h hph ho
  obtain ⟨⟨es, ei, ue, nz, x1, x2, p1, p2, e1⟩, hpop⟩ := acmAsk_ok hgr hask
  have hfull1 : t1.full = t.full := by rw [e1]; exact hbf
  have hts1 : t1.tset = t.tset := by rw [e1]; exact hts
  have hm1 : t1.m = t.m := by rw [e1, e0]
  have hl1 : t1.l = t.l := by rw [e1, e0]
  have hpopne : pop ≠ [] := by
    rintro rfl
    rw [List.length_nil] at hpop
    by_cases hb : (t.exploit && t.begun.full) = true
    · rw [if_pos hb] at hpop
      have hne : t.s.niter ≠ 0 := by
        intro h0
        rw [hbf] at hb
        have hfu : t.full = true := by revert hb; cases t.full <;> simp
        unfold full at hfu
        rw [hfr h0] at hfu
        simp at hfu
        omega
      rw [begun_of_ne hne] at hpop
      omega
    · rw [if_neg hb] at hpop
      omega
  have ho' := acmEval_swap (sf := sf) hT (k := t.tset.length) (b := t.s.sol.hasCsq)
    (by rw [hm1, hfull1]; exact hP) hf
    (by
      rw [hfull1, hts1, hl1]
      intro hfu
      unfold full at hfu
      simp only [ge_iff_le, decide_eq_true_eq] at hfu
      exact ⟨rfl, by omega⟩)
    (by rw [hts1]; exact hn) (by rw [e1]) (by rw [e1]; exact hlam) hpopne
    (by
      rw [e1]
      intro h0
      have : t.s.sol.cands.length = 0 := by rw [show t.s.sol.cands = [] from h0]; rfl
      omega) ho
  rw [hask, Out.ok_bind]
  simp only
  rw [hph, Out.ok_bind, ho', Out.ok_bind]
  simp only
  rw [acmTell_eq] at h ⊢
  obtain ⟨t4, h4, h⟩ := Out.bind_eq_ok.1 h
  obtain ⟨t3, h3, h4⟩ := Out.bind_eq_ok.1 h4
  obtain ⟨b, hb, h4⟩ := Out.bind_eq_ok.1 h4
  rw [h3, Out.ok_bind, hb, Out.ok_bind]
  have hfin := Option.some.inj (Except.ok.inj h)
  have hfram := evalFrame ho
  obtain ⟨s4, e3, _, _⟩ := acmCov_ok h3
  have hb' : t3.full = b := by
    unfold acmDoTrain at hb
    cases hfu : t3.full with
    | true => rw [if_pos hfu] at hb; exact Except.ok.inj hb
    | false =>
      rw [if_neg (by rw [hfu]; simp)] at hb
      split_ifs at hb
      · exact Except.ok.inj hb
      · exact Except.ok.inj hb
  have h34 : t4.tset = t3.tset ∧ t4.s = t3.s := by
    split_ifs at h4
    · unfold acmLearn at h4
      obtain ⟨m, _, h4⟩ := Out.bind_eq_ok.1 h4
      obtain ⟨e, _, h4⟩ := Out.bind_eq_ok.1 h4
      rw [← Except.ok.inj h4]
      exact ⟨rfl, rfl⟩
    · rw [← Except.ok.inj h4]
      exact ⟨rfl, rfl⟩
  refine ⟨t3, by rw [e3]; exact hfram.1.trans hm1, by rw [← hfin]; exact h34.1.symm, by rw [e3]; exact hfram.2.trans hl1,
    by rw [← hfin, ← h34.2]; rfl, fun hfu => ⟨?_, t4, ?_, hfin.symm⟩, fun hfu => ?_⟩
  · rw [← hb', hfu]; rfl
  · rw [← hb', hfu] at h4; exact h4
  · rw [← hb', hfu] at h4 ⊢
    have h4' : t3 = t4 := Except.ok.inj h4
    refine ⟨?_, ?_⟩
    · rw [← hfin, ← h4', e3]; exact hfram.1.trans hm1
    · rw [← hfin, ← h4']; rfl

end Surr

end Libcmaes
