import Verif.Spec.Print
import Verif.Lemmas.ErrStatsWit
import Verif.Lemmas.ElitistRestart
import Verif.Props.Solutions
import Verif.Props.Eval

/-! # The printed summary -/

namespace Libcmaes

open Spec ErrStats

variable {n : ℕ}

/-! ### Values -/

/-- What holds at every moment of a run of an objective that depends on the point only. -/
structure PrintInv (f : Vec n → FVal) (p : Params n) (s : Strat n) : Prop where
  good : GoodParams s.p
  cands : s.sol.cands.length = s.p.lambda
  uh : s.p.uh = false
  gp : s.p.gp = p.gp
  negate : s.negate = p.maximize
  hist : 0 < s.sol.maxHist
  calls : s.sol.nevals = s.calls.length
  seen : ∀ c, s.sol.bestSeen = some c → ValueAt f p c.x c.fvalue
  init : ∀ c, s.sol.initialCand = some c → ValueAt f p c.x c.fvalue

/-- What holds after a generation. -/
structure PrintTold (f : Vec n → FVal) (p : Params n) (s : Strat n) : Prop where
  value : ∀ c ∈ s.sol.cands, ValueAt f p c.x c.fvalue
  mem : s.sol.bestCandidate ∈ s.sol.cands
  least : ∀ c ∈ s.sol.cands, ¬ FVal.lt c.fvalue s.sol.bestCandidate.fvalue

theorem PrintInv.new {f : Vec n → FVal} {env : Env n} {kind : CovKind} {p : Params n} {s : Strat n}
    (hg : Configured p) (huh : p.uh = false) (h : Strat.new env kind p = .ok s) : PrintInv f p s := by
  have hB := begins_new h
  refine ⟨by rw [hB.params]; exact hg.with_sigmaInit _, by rw [hB.params]; exact hB.fresh.cands, by rw [hB.params]; exact huh,
    by rw [hB.params], hB.negate, ?_, ?_, ?_, ?_⟩
  · rw [hB.maxHist]; exact C21_max_hist_pos _ _ _
  · rw [hB.fresh.nevals, (Strat.new_ok h).2.2.2.2.2.2.2.2.1]; rfl
  · intro c hc; rw [hB.fresh.bestSeen] at hc; cases hc
  · intro c hc; rw [hB.initialCand] at hc; cases hc

theorem PrintInv.generation {f : Vec n → FVal} {p : Params n} {env : Env n} {s s' : Strat n}
    (hf : ∀ k y, env.f k y = f y) (hi : PrintInv f p s) (h : s.generation env = .ok s') :
    PrintInv f p s' ∧ PrintTold f p s' := by
  obtain ⟨pop, s1, phen, s2, s3, ha, hph, he, ht, e, hperm, hlen, _⟩ := generation_points hi.good hi.cands h
  obtain ⟨tr, hrun⟩ := Strat.generation_run h
  obtain ⟨r1, _, r3, _, _, _, _, r8, _, r10⟩ := run_p hrun
  obtain ⟨cc, k1, _, k3⟩ := C36_run env s s' _ hrun
  obtain ⟨⟨es, ei, ue, c, nz, x1, x2, p1, p2, e1⟩, hpl⟩ := Strat.ask_frame ha
  obtain ⟨c2, nu, nzuh, lr, cu, cs, e2, hcs2, _⟩ := Strat.eval_frame he
  obtain ⟨cs', cu', su, ts, sol3, hs, hb, csq, hc, sc, ps, hs', pc, cov, sep, v, sg, xp, xm, mx, mn, lv, le,
    e3⟩ := Strat.tell_frame ht
  obtain ⟨c0, ck, cl, med, h0, _, _, _, eb, b1, b2, b3, b4, _⟩ := Sol.updateBest_ok hb
  have huh2 : s2.p.uh = false := by rw [e2, e1]; exact hi.uh
  have hm2 : 0 < s2.sol.maxHist := by rw [e2, e1]; exact hi.hist
  obtain ⟨t1, t2, t3⟩ := C20_tell_ranks env s2 s3 huh2 hm2 ht
  have hgp1 : s1.p.gp = p.gp := by rw [e1]; exact hi.gp
  have hneg1 : s1.negate = p.maximize := by rw [e1]; exact hi.negate
  have href : s1.elitistRef = s.elitistRef := by rw [e1]; rfl
  have hcs : ∀ c ∈ s'.sol.cands, ValueAt f p c.x c.fvalue := by
    intro c hc
    rcases eval_valued (by rw [e1]; exact hi.uh) (by rw [hpl, e1]; exact hi.cands.le) hph he c
      (hperm.mem_iff.1 hc) with ⟨j, y, h1, h2⟩ | h1
    · refine ⟨y, hgp1 ▸ h1, ?_⟩
      rw [h2, hf, hneg1]; rfl
    · rw [href] at h1
      rcases elitistRef_mem h1 with h | h
      · exact hi.seen c h
      · exact hi.init c h
  have ecs : s'.sol.cands = cs' := by rw [e, e3, eb]; rfl
  have ebs : s'.sol.bestSeen = sol3.bestSeen := by rw [e, e3]; rfl
  have ebs2 : s2.sol.bestSeen = s.sol.bestSeen := by rw [e2, e1]
  refine ⟨⟨by rw [r1]; exact hi.good, by rw [hlen, r1], by rw [r1]; exact hi.uh, by rw [r1]; exact hi.gp,
    by rw [r8]; exact hi.negate, by rw [r3]; exact hi.hist, by rw [k3, k1, List.length_append, hi.calls], ?_, ?_⟩,
    hcs, ?_, ?_⟩
  · intro c hc
    rw [ebs] at hc
    rcases (updateBest_seen hb).2 c hc with h | h
    · exact hcs c (by rw [ecs]; exact h)
    · exact hi.seen c (by rw [← ebs2]; exact h)
  · intro c hc
    rw [r10] at hc
    exact hi.init c hc
  · rw [e]
    exact List.mem_of_mem_head? t3
  · intro c hc
    obtain ⟨pre, post, q1, q2, q3⟩ := t2
    have hc2 := hperm.mem_iff.1 hc
    rw [q1] at hc2
    have hbc : s'.sol.bestCandidate = s3.sol.bestCandidate := by rw [e]; rfl
    rw [hbc]
    rcases List.mem_append.1 hc2 with h | h
    · exact FVal.lt_asymm (q2 c h)
    · rcases List.mem_cons.1 h with rfl | h
      · exact FVal.lt_irrefl _
      · exact q3 c h

theorem PrintInv.stop {f : Vec n → FVal} {p : Params n} {env : Env n} {s s' : Strat n} {b : Bool}
    (hi : PrintInv f p s) (h : s.stop env = .ok (b, s')) :
    PrintInv f p s' ∧ (PrintTold f p s → PrintTold f p s') := by
  obtain ⟨k, r, e⟩ := Strat.stop_frame h
  rw [e]
  exact ⟨⟨hi.good, hi.cands, hi.uh, hi.gp, hi.negate, hi.hist, hi.calls, hi.seen, hi.init⟩,
    fun h => ⟨h.value, h.mem, h.least⟩⟩

theorem PrintInv.edm {f : Vec n → FVal} {p : Params n} {env : Env n} {s s' : Strat n}
    (hi : PrintInv f p s) (h : (if s.p.withEdm then s.edm env else pure s) = .ok s') :
    PrintInv f p s' ∧ (PrintTold f p s → PrintTold f p s') ∧ s'.sol.niter = s.sol.niter := by
  split_ifs at h
  · obtain ⟨c, ed, e⟩ := Strat.edm_frame h
    rw [e]
    refine ⟨⟨hi.good, hi.cands, hi.uh, hi.gp, hi.negate, hi.hist, ?_, hi.seen, hi.init⟩,
      fun h => ⟨h.value, h.mem, h.least⟩, rfl⟩
    show s.sol.nevals + c.length = (s.calls ++ c).length
    rw [List.length_append, hi.calls]
  · injection h with h
    subst h
    exact ⟨hi, id, rfl⟩

theorem PrintInv.evalInitial {f : Vec n → FVal} {p : Params n} {env : Env n} {s s' : Strat n}
    (hf : ∀ k y, env.f k y = f y) (hi : PrintInv f p s) (h : s.evalInitial env = .ok s') :
    PrintInv f p s' ∧ s'.sol.niter = s.sol.niter := by
  rcases Strat.evalInitial_frame h with e | ⟨y, v, hy, hv, e⟩
  · rw [e]; exact ⟨hi, rfl⟩
  · have hval : ValueAt f p s.sol.xmean (if s.negate then v.neg else v) :=
      ⟨y, hi.gp ▸ hy, by rw [hv, hf, hi.negate]⟩
    rw [e]
    refine ⟨⟨hi.good, hi.cands, hi.uh, hi.gp, hi.negate, hi.hist, ?_, ?_, ?_⟩, rfl⟩
    · show s.sol.nevals + 1 = (s.calls ++ [(y, v)]).length
      rw [List.length_append, hi.calls]; rfl
    · intro c hc; injection hc with hc; subst hc; exact hval
    · intro c hc; injection hc with hc; subst hc; exact hval

theorem PrintInv.genRun {f : Vec n → FVal} {p : Params n} {env : Env n} {s t : Strat n} {k : ℕ}
    (hf : ∀ k y, env.f k y = f y) (hi : PrintInv f p s) (h : GenRun env s k t) :
    PrintInv f p t ∧ (k ≠ 0 → PrintTold f p t) := by
  induction h with
  | refl => exact ⟨hi, fun h => absurd rfl h⟩
  | stop _ h ih =>
    obtain ⟨a, b⟩ := ih.1.stop h
    exact ⟨a, fun hk => b (ih.2 hk)⟩
  | turn _ h ih =>
    obtain ⟨a, b⟩ := ih.1.generation hf h
    exact ⟨a, fun _ => b⟩

theorem print_eq {s : Sol n} {pls : Pls n} {verb : Bool} {gp : GenoPheno} {o : Option (Printed n)} (hc : s.cands ≠ [])
    (h : s.print pls verb gp = .ok o) : ∃ q, o = some q ∧ q.fvalue = s.bestCandidate.fvalue ∧ q.fevals = s.nevals ∧
      q.sigma = s.sigma ∧ q.iter = s.niter ∧ phenoV gp s.bestCandidate.x = .ok q.x ∧
      ((List.range n).filterMap fun k => (pls k).map fun q => (k, q)).mapM (fun a => printInterval verb a.1 a.2) =
        .ok q.intervals := by
  unfold Sol.print at h
  rw [if_neg hc] at h
  obtain ⟨x, hx, h⟩ := Out.bind_eq_ok.1 h
  obtain ⟨l, hl, h⟩ := Out.bind_eq_ok.1 h
  injection h with h
  subst h
  exact ⟨_, rfl, rfl, rfl, rfl, rfl, hx, hl⟩

theorem summary_of {f : Vec n → FVal} {p : Params n} {s : Strat n} {pls : Pls n} {verb : Bool} {o : Option (Printed n)}
    (hi : PrintInv f p s) (ht : PrintTold f p s) (h : s.sol.print pls verb p.gp = .ok o) :
    ∃ q, o = some q ∧ HonestSummary f p s.sol.niter s q := by
  obtain ⟨q, rfl, q1, q2, q3, q4, q5, q6⟩ := print_eq (List.ne_nil_of_mem ht.mem) h
  obtain ⟨y, hy, hv⟩ := ht.value _ ht.mem
  rw [q5] at hy
  injection hy with hy
  exact ⟨q, rfl, by rw [q1, hv, hy], ⟨_, ht.mem, q1.symm, q5⟩, fun c hc => by rw [q1]; exact ht.least c hc,
    by rw [q2]; exact hi.calls, q4⟩

/-! ### Intervals -/

theorem idxZ_nat {α : Type} (l : List α) (i : ℕ) : idxZ l (i : ℤ) = idx l i := by
  unfold idxZ
  rw [if_neg (by omega)]
  rfl

theorem idxZ_eq {α : Type} {l : List α} {z : ℤ} {i : ℕ} {a : α} (hz : z = i) (h : l[i]? = some a) : idxZ l z = .ok a := by
  rw [hz, idxZ_nat, idx_eq_ok]
  exact h

/-- The shape of a profile that was computed. -/
theorem profile_parts {f : List ℝ → FVal} {inner : Inner} {fuel : ℕ} {p : Params n} {sol : Sol n} {pls pls' : Pls n}
    {k : Fin n} {curve : Bool} {s : ℕ} {fup delta : ℝ} {maxiters : ℤ} {le : Pli n}
    (h : profileLikelihood f inner fuel p sol pls k curve s fup delta maxiters = .ok (some (le, pls'))) :
    pls' = insertPli pls k le ∧ le.Shaped ∧ le.k = k ∧ ∃ (i j : ℕ) (y a b : Vec n), i < le.samplesize ∧ j < le.samplesize ∧
      le.minindex = i ∧ le.maxindex = j ∧ phenoV p.gp sol.bestCandidate.x = .ok y ∧
      le.xm[i]? = some a ∧ le.xm[le.samplesize + 1 + j]? = some b ∧
      le.min = min (a k) (b k) ∧ le.max = max (a k) (b k) ∧ le.errmin = le.min - y k ∧ le.errmax = le.max - y k := by
  obtain ⟨y, le1, le2, no1, no2, hy, h1, h2, h3, h4⟩ := profileLikelihood_eq h
  have sh0 := Pli.make_shaped k.val s y sol.bestCandidate.fvalue fup delta
  have hl1 := searchLoop_like fuel sh0 h1
  have sh1 := hl1.shaped sh0
  have hl2 := searchLoop_like fuel sh1 h2
  have hl := hl1.trans hl2
  have sh2 := hl2.shaped sh1
  obtain ⟨hk, i, j, v, vi, vj, x, xi, xj, hi, hj, rfl, hv, hx, hvi, hxi, hvj, hxj, _, _⟩ := Pli.setErrMinMax_spec sh2 h3
  have ek : (⟨le2.k, hk⟩ : Fin n) = k := Fin.ext hl.k
  have hxy : x = y := by
    have := hl.cx
    rw [← hl.s, hx] at this
    have hc : (Pli.make k.val s y sol.bestCandidate.fvalue fup delta).xm[le2.samplesize]? = some y := by
      rw [hl.s]
      exact List.getElem?_set_self (by simp; omega)
    rw [hc] at this
    exact Option.some.inj this
  subst hxy
  refine ⟨h4, ⟨sh2.fv, sh2.xm, sh2.err⟩, hl.k, i, j, x, xi, xj, hi, hj, rfl, rfl, hy, hxi, hxj, ?_, ?_, ?_, ?_⟩ <;>
    simp only [ek]

theorem some_of_lt {α : Type} {l : List α} {i : ℕ} (h : i < l.length) : ∃ a, l[i]? = some a :=
  ⟨l[i], List.getElem?_eq_getElem h⟩

/-- What a profile that was computed prints. -/
theorem printInterval_ok {f : List ℝ → FVal} {inner : Inner} {fuel : ℕ} {p : Params n} {sol : Sol n} {pls pls' : Pls n}
    {k : Fin n} {curve : Bool} {s : ℕ} {fup delta : ℝ} {maxiters : ℤ} {le : Pli n} (verb : Bool)
    (h : profileLikelihood f inner fuel p sol pls k curve s fup delta maxiters = .ok (some (le, pls'))) :
    ∃ I, printInterval verb k le = .ok I ∧ I.dim = k ∧
      ∀ q : Printed n, phenoV p.gp sol.bestCandidate.x = .ok q.x → HonestInterval le q I := by
  obtain ⟨-, sh, hk, i, j, y, a, b, hi, hj, e1, e2, hy, ha, hb, h1, h2, h3, h4⟩ := profile_parts h
  have f1 := sh.fv
  have f3 := sh.err
  obtain ⟨sa, hsa⟩ := some_of_lt (l := le.err) (i := i) (by omega)
  obtain ⟨sb, hsb⟩ := some_of_lt (l := le.err) (i := j) (by omega)
  obtain ⟨va, hva⟩ := some_of_lt (l := le.fvaluem) (i := i) (by omega)
  obtain ⟨vb, hvb⟩ := some_of_lt (l := le.fvaluem) (i := le.samplesize + 1 + j) (by omega)
  have e3 : (le.samplesize : ℤ) + 1 + le.maxindex = ((le.samplesize + 1 + j : ℕ) : ℤ) := by rw [e2]; push_cast; ring
  have hp : printInterval verb k le = .ok ⟨k, le.min, le.max, le.errmin, le.errmax,
      if sa ≠ 0 ∨ sb ≠ 0 then some (sa, sb) else none, (va, vb), if verb then some (a, b) else none⟩ := by
    unfold printInterval
    rw [idxZ_eq e1 hsa, Out.ok_bind, idxZ_eq e2 hsb, Out.ok_bind, idxZ_eq e1 hva, Out.ok_bind, idxZ_eq e3 hvb, Out.ok_bind,
      idxZ_eq e1 ha, idxZ_eq e3 hb]
    cases verb <;> rfl
  refine ⟨_, hp, rfl, fun q hq => ?_⟩
  rw [hy] at hq
  injection hq with hq
  refine ⟨by simp only [h1, h2]; exact min_le_max, k, a, b, va, vb, sa, i, le.samplesize + 1 + j, rfl, hi, by omega, by omega,
    ha, hva, hsa, hb, hvb, h1, h2, by simp only [h3, hq], by simp only [h4, hq], rfl, ?_, ?_, ?_⟩
  · intro e he
    cases verb
    · cases he
    · injection he with he; exact he.symm
  · intro hst
    simp only at hst
    split_ifs at hst with hc
    by_contra hne
    exact hc (Or.inl hne)
  · intro st hst
    simp only at hst
    split_ifs at hst
    injection hst with hst
    rw [← hst]

/-- Every profile a solution holds was computed. -/
theorem Spec.Profiled.mem {p : Params n} {sol : Sol n} {pls : Pls n} (h : Profiled p sol pls) (verb : Bool) :
    ∀ k le, pls k = some le → ∃ I, printInterval verb k le = .ok I ∧ I.dim = k ∧
      ∀ q : Printed n, phenoV p.gp sol.bestCandidate.x = .ok q.x → HonestInterval le q I := by
  induction h with
  | none => intro k le h; cases h
  | @add pls pls' f inner fuel k curve s fup delta maxiters le _ h ih =>
    intro k' le' hk'
    have e := (profile_parts h).1
    rw [e] at hk'
    unfold insertPli at hk'
    cases ho : pls k.val with
    | some l => rw [ho] at hk'; exact ih k' le' hk'
    | none =>
      rw [ho] at hk'
      simp only at hk'
      by_cases hkk : k' = k.val
      · subst hkk
        rw [Function.update_self] at hk'
        injection hk' with hk'
        subst hk'
        exact printInterval_ok verb h
      · rw [Function.update_of_ne hkk] at hk'
        exact ih k' le' hk'

end Libcmaes
