import Verif.Spec.ElitistRestart
import Verif.Lemmas.FixInv
import Verif.Lemmas.StopRun

/-! # The elitist restart -/

namespace Libcmaes

open Spec

variable {n : ℕ}

theorem Spec.AsGoodAs.trans {a b c : FVal} (h : AsGoodAs a b) (h' : AsGoodAs b c) : AsGoodAs a c := by
  rcases h with rfl | h
  · exact h'
  · rcases h' with rfl | h'
    · exact Or.inr h
    · exact Or.inr (FVal.lt_trans h h')

theorem FVal.lt_of_lt_of_not_lt {a b c : FVal} (h : lt a b) (h' : ¬ lt c b) (hc : c.IsNum) : lt a c := by
  cases a <;> cases b <;> cases c <;> simp_all [lt, IsNum]
  exact lt_of_lt_of_le h h'

theorem FVal.lt_of_not_lt_of_lt {a b c : FVal} (h : ¬ lt a c) (h' : lt a b) (hc : c.IsNum) : lt c b := by
  cases a <;> cases b <;> cases c <;> simp_all [lt, IsNum]
  exact lt_of_le_of_lt h h'

/-! ### When a run is repeated -/

theorem wantsRestart_iff {s : Strat n} {b : Bool} (hf : s.p.initialElitistOnRestart = true)
    (h : s.wantsRestart = .ok b) : b = true ↔ NeedsRestart s := by
  unfold Strat.wantsRestart at h
  rw [if_pos hf] at h
  unfold NeedsRestart
  cases hb : s.sol.bestSeen with
  | none =>
    rw [hb] at h
    injection h with h
    subst h
    exact ⟨fun h => (nomatch h), fun ⟨_, _, h, _⟩ => (nomatch h)⟩
  | some c =>
    rw [hb] at h
    simp only at h
    by_cases hl : FVal.lt c.fvalue s.sol.bestCandidate.fvalue
    · rw [if_pos hl] at h
      cases hi : s.sol.bestSeenIter with
      | none => rw [hi] at h; cases h
      | some i =>
        rw [hi] at h
        injection h with h
        rw [← h, decide_eq_true_iff]
        constructor
        · intro h'; exact ⟨c, i, rfl, hl, rfl, by omega⟩
        · rintro ⟨c', i', _, _, h1, h2⟩; injection h1 with h1; omega
    · rw [if_neg hl] at h
      injection h with h
      subst h
      constructor
      · intro h; cases h
      · rintro ⟨c', i', h1, h2, _⟩; injection h1 with h1; subst h1; exact absurd h2 hl

/-! ### Values -/

/-- What holds between the runs of an objective that depends on the point only. -/
structure HonestInv (f : Vec n → FVal) (fp : List (ℕ × ℝ)) (p : Params n) (s : Strat n) : Prop where
  fix : FixInv fp s
  uh : s.p.uh = false
  gp : s.p.gp = p.gp
  negate : s.negate = p.maximize
  seen : ∀ c, s.sol.bestSeen = some c → ValueAt f p c.x c.fvalue
  init : ∀ c, s.sol.initialCand = some c → ValueAt f p c.x c.fvalue

/-- Points and values of the population after `eval`. -/
theorem eval_valued {env : Env n} {s s' : Strat n} {cols phen : List (Vec n)} (huh : s.p.uh = false)
    (hl : s.sol.cands.length ≤ cols.length) (hph : cols.mapM (phenoV s.p.gp) = .ok phen)
    (h : s.eval env cols phen = .ok s') (c : Cand n) (hc : c ∈ s'.sol.cands) :
    (∃ j y, phenoV s.p.gp c.x = .ok y ∧ c.fvalue = negIf s.negate (env.f j y)) ∨ s.elitistRef = some c := by
  obtain ⟨h1, h2⟩ := Strat.eval_bounds h
  obtain ⟨s3, h3, e⟩ := Strat.eval_ok huh h
  have hlen := Out.mapM_length hph
  have key : ∀ d ∈ (s.evaluated env cols phen).sol.cands,
      ∃ j y, phenoV s.p.gp d.x = .ok y ∧ d.fvalue = negIf s.negate (env.f j y) := by
    intro d hd
    obtain ⟨r, hr, hd'⟩ := List.mem_iff_getElem.1 hd
    have h4 := Strat.evaluated_cands (env := env) (phen := phen) h1 r
    rw [Strat.evaluated_length] at hr
    have hr' : r < cols.length := by omega
    rw [if_pos hr', List.getElem?_eq_getElem (by rwa [Strat.evaluated_length]), hd'] at h4
    injection h4 with h4
    refine ⟨_, colY cols phen r, ?_, by rw [h4]⟩
    have hx : d.x = cols[r] := by
      rw [h4]; simp [colX, List.getD, List.getElem?_eq_getElem hr']
    have hy : colY cols phen r = phen[r] := by
      have : phen.isEmpty = false := by
        cases phen with
        | nil => rw [List.length_nil] at hlen; omega
        | cons => rfl
      unfold colY
      rw [this]
      simp [colX, List.getD, List.getElem?_eq_getElem (show r < phen.length by omega)]
    rw [hx, hy]
    have := Out.mapM_eq_ok.1 hph
    exact (List.forall₂_iff_get.1 this).2 r hr' (by omega)
  rcases Strat.reinject_frame h3 with h4 | ⟨c', h4, h5, h6⟩
  · left
    refine key c ?_
    rw [e, h4] at hc; exact hc
  · rw [e, h6] at hc
    rcases List.mem_or_eq_of_mem_set (show c ∈ List.set _ 1 c' from hc) with h | h
    · exact Or.inl (key c h)
    · subst h; exact Or.inr h4

theorem HonestInv.generation {f : Vec n → FVal} {fp : List (ℕ × ℝ)} {p : Params n} {env : Env n} {s s' : Strat n}
    (hf : ∀ k y, env.f k y = f y) (hi : HonestInv f fp p s) (h : s.generation env = .ok s') :
    HonestInv f fp p s' ∧ ∀ b, s.sol.bestSeen = some b →
      ∃ b', s'.sol.bestSeen = some b' ∧ AsGoodAs b'.fvalue b.fvalue := by
  have hfix := (hi.fix.generation h).1
  obtain ⟨pop, s1, phen, s2, s3, ha, hph, he, ht, e, hperm, hlen, _⟩ :=
    generation_points hi.fix.good hi.fix.cands h
  obtain ⟨tr, hrun⟩ := Strat.generation_run h
  obtain ⟨r1, _, _, _, _, _, _, r8, _, r10⟩ := run_p hrun
  obtain ⟨⟨es, ei, ue, c, nz, x1, x2, p1, p2, e1⟩, hpl⟩ := Strat.ask_frame ha
  obtain ⟨c2, nu, nzuh, lr, cu, cs, e2, hcs2, _⟩ := Strat.eval_frame he
  obtain ⟨cs', cu', su, ts, sol3, hs, hb, csq, hc, sc, ps, hs', pc, cov, sep, v, sg, xp, xm, mx, mn, lv, le,
    e3⟩ := Strat.tell_frame ht
  obtain ⟨c0, ck, cl, med, h0, _, _, _, eb, b1, b2, b3, b4, _⟩ := Sol.updateBest_ok hb
  have hgp1 : s1.p.gp = p.gp := by rw [e1]; exact hi.gp
  have hneg1 : s1.negate = p.maximize := by rw [e1]; exact hi.negate
  have href : s1.elitistRef = s.elitistRef := by rw [e1]; rfl
  have hcs : ∀ c ∈ s'.sol.cands, ValueAt f p c.x c.fvalue := by
    intro c hc
    rcases eval_valued (by rw [e1]; exact hi.uh) (by rw [hpl, e1]; exact hi.fix.cands.le) hph he c
      (hperm.mem_iff.1 hc) with ⟨j, y, h1, h2⟩ | h1
    · refine ⟨y, hgp1 ▸ h1, ?_⟩
      rw [h2, hf, hneg1]; rfl
    · rw [href] at h1
      rcases elitistRef_mem h1 with h | h
      · exact hi.seen c h
      · exact hi.init c h
  have ecs : s'.sol.cands = cs' := by rw [e, e3, eb]; rfl
  have ebs : s'.sol.bestSeen = sol3.bestSeen := by rw [e, e3]; rfl
  have ebs2 : s2.sol.bestSeen = s.sol.bestSeen := by rw [e2, e1]
  refine ⟨⟨hfix, by rw [r1]; exact hi.uh, by rw [r1]; exact hi.gp, by rw [r8]; exact hi.negate, ?_, ?_⟩, ?_⟩
  · intro c hc
    rw [ebs] at hc
    rcases (updateBest_seen hb).2 c hc with h | h
    · exact hcs c (by rw [ecs]; exact h)
    · exact hi.seen c (by rw [← ebs2]; exact h)
  · intro c hc
    rw [r10] at hc
    exact hi.init c hc
  · intro b hb'
    rw [ebs]
    by_cases hlt : FVal.lt c0.fvalue b.fvalue
    · exact ⟨c0, (b3 b (ebs2.trans hb') hlt).1, Or.inr hlt⟩
    · exact ⟨b, (b4 b (ebs2.trans hb') hlt).1, Or.inl rfl⟩

theorem HonestInv.stop {f : Vec n → FVal} {fp : List (ℕ × ℝ)} {p : Params n} {env : Env n} {s s' : Strat n} {b : Bool}
    (hi : HonestInv f fp p s) (h : s.stop env = .ok (b, s')) :
    HonestInv f fp p s' ∧ s'.sol.bestSeen = s.sol.bestSeen := by
  obtain ⟨k, r, e⟩ := Strat.stop_frame h
  rw [e]
  exact ⟨⟨⟨⟨hi.fix.good, hi.fix.unscaled, hi.fix.fixed, hi.fix.mean, hi.fix.seen, hi.fix.init⟩, hi.fix.cands⟩,
    hi.uh, hi.gp, hi.negate, hi.seen, hi.init⟩, rfl⟩

theorem HonestInv.edm {f : Vec n → FVal} {fp : List (ℕ × ℝ)} {p : Params n} {env : Env n} {s s' : Strat n}
    (hi : HonestInv f fp p s) (h : (if s.p.withEdm then s.edm env else pure s) = .ok s') :
    HonestInv f fp p s' ∧ s'.sol.bestSeen = s.sol.bestSeen := by
  split_ifs at h
  · obtain ⟨c, ed, e⟩ := Strat.edm_frame h
    rw [e]
    exact ⟨⟨⟨⟨hi.fix.good, hi.fix.unscaled, hi.fix.fixed, hi.fix.mean, hi.fix.seen, hi.fix.init⟩, hi.fix.cands⟩,
      hi.uh, hi.gp, hi.negate, hi.seen, hi.init⟩, rfl⟩
  · injection h with h
    subst h
    exact ⟨hi, rfl⟩

theorem HonestInv.evalInitial {f : Vec n → FVal} {fp : List (ℕ × ℝ)} {p : Params n} {env : Env n} {s s' : Strat n}
    (hf : ∀ k y, env.f k y = f y) (hi : HonestInv f fp p s) (h : s.evalInitial env = .ok s') :
    HonestInv f fp p s' := by
  rcases Strat.evalInitial_frame h with e | ⟨y, v, hy, hv, e⟩
  · rw [e]; exact hi
  · have hval : ValueAt f p s.sol.xmean (if s.negate then v.neg else v) :=
      ⟨y, hi.gp ▸ hy, by rw [hv, hf, hi.negate]⟩
    rw [e]
    refine ⟨⟨⟨hi.fix.good, hi.fix.unscaled, hi.fix.fixed, hi.fix.mean, ?_, ?_⟩, hi.fix.cands⟩, hi.uh, hi.gp,
      hi.negate, ?_, ?_⟩
    · intro c hc; injection hc with hc; subst hc; exact hi.fix.mean
    · intro c hc; injection hc with hc; subst hc; exact hi.fix.mean
    · intro c hc; injection hc with hc; subst hc; exact hval
    · intro c hc; injection hc with hc; subst hc; exact hval

theorem setFixed_self {fp : List (ℕ × ℝ)} {x : Vec n} (hl : ∀ q ∈ fp, q.1 < n)
    (h : ∀ (i : Fin n) (v : ℝ), (i.val, v) ∈ fp → x i = v) : setFixed fp x = .ok x := by
  unfold setFixed
  induction fp with
  | nil => rfl
  | cons q fp ih =>
    rw [List.foldlM_cons, dif_pos (hl q (by simp)), Out.ok_bind]
    have : Function.update x ⟨q.1, hl q (by simp)⟩ q.2 = x := by
      rw [Function.update_eq_self_iff]
      exact (h ⟨q.1, hl q (by simp)⟩ q.2 (by simp)).symm
    rw [this]
    exact ih (fun r hr => hl r (by simp [hr])) fun i v hv => h i v (by simp [hv])

/-- The mean with which a restart begins. -/
theorem initialMean_restart {p : Params n} {x r : Vec n} (hsc : p.gp.scale = .noScaling) (hg : GoodParams p)
    (hx : FixedAt p x) (hfar : x ≠ fun _ => -dblMax) :
    initialMean { p with x0min := x, x0max := x } r = .ok x := by
  have e : initialMean { p with x0min := x, x0max := x } r =
      (setFixed p.fixedP (if x = x then if x = (fun _ => -dblMax) then (fun i => r i * 4) else x
        else fun i => 0.5 * (r i + 1) * (x i - x i) + x i) >>= fun m1 => scaleToInternalV p.gp m1) := rfl
  rw [e, if_pos rfl, if_neg hfar, setFixed_self hg.fixed_lt hx, Out.ok_bind]
  unfold scaleToInternalV
  rw [hsc]

theorem HonestInv.restart {f : Vec n → FVal} {fp : List (ℕ × ℝ)} {p : Params n} {env : Env n} {s s' : Strat n}
    (hi : HonestInv f fp p s) {b : Cand n} (hb : s.sol.bestSeen = some b) (hfar : b.x ≠ fun _ => -dblMax)
    (h : s.elitistRestart env = .ok s') :
    HonestInv f fp p s' ∧ s'.sol.xmean = b.x ∧ s'.initialElitist = true := by
  obtain ⟨b', q, sol, hb', hm, e⟩ := Strat.elitistRestart_ok h
  have : b' = b := by rw [hb] at hb'; injection hb' with hb'; exact hb'.symm
  subst this
  have hg : GoodParams { s.p with x0min := b'.x, x0max := b'.x } :=
    hi.fix.good.same ⟨rfl, rfl, rfl, rfl, rfl, rfl, rfl, rfl, rfl, rfl, rfl, rfl, rfl, rfl, rfl, rfl, rfl⟩
  have hfix : FixInv fp s' := fixInv_make (p := { s.p with x0min := b'.x, x0max := b'.x }) hg hi.fix.unscaled
    hi.fix.fixed hm (by rw [e]) (by rw [e]) (by rw [e]) (by rw [e]) (by rw [e])
  obtain ⟨a1, a2, a3, a4, a5, a6, a7, a8, a9, _⟩ := Sol.make_eq_ok hm
  rw [initialMean_restart hi.fix.unscaled hi.fix.good (hi.fix.seen _ hb) hfar] at a1
  refine ⟨⟨hfix, ?_, ?_, ?_, ?_, ?_⟩, ?_, ?_⟩
  · rw [e, a6]; exact hi.uh
  · rw [e, a6]; exact hi.gp
  · rw [e]; exact hi.negate
  · intro c hc; rw [e] at hc
    replace hc : sol.bestSeen = some c := hc
    rw [a4.bestSeen] at hc; cases hc
  · intro c hc; rw [e] at hc
    replace hc : sol.initialCand = some c := hc
    rw [a9] at hc; cases hc
  · rw [e]; exact (Except.ok.inj a1).symm
  · rw [e]

theorem loop_kept {f : Vec n → FVal} {fp : List (ℕ × ℝ)} {p : Params n} {env : Env n} {s s' : Strat n} {v : FVal}
    (k : ℕ) (hf : ∀ k y, env.f k y = f y) (hi : HonestInv f fp p s)
    (hb : ∃ b, s.sol.bestSeen = some b ∧ AsGoodAs b.fvalue v) (h : s.loop env k = .ok (some s')) :
    HonestInv f fp p s' ∧ ∃ b, s'.sol.bestSeen = some b ∧ AsGoodAs b.fvalue v := by
  refine Strat.loop_induct (I := fun t => HonestInv f fp p t ∧ ∃ b, t.sol.bestSeen = some b ∧ AsGoodAs b.fvalue v)
    ?_ ?_ k ⟨hi, hb⟩ h
  · rintro t b t' ⟨i1, i2⟩ ht
    obtain ⟨j1, j2⟩ := i1.stop ht
    exact ⟨j1, by rw [j2]; exact i2⟩
  · rintro t t' ⟨i1, b, i2, i3⟩ ht
    obtain ⟨j1, j2⟩ := i1.generation hf ht
    obtain ⟨b', h1, h2⟩ := j2 b i2
    exact ⟨j1, b', h1, h2.trans i3⟩

/-- A restarted run, and those that follow it, do not lose the value they start with. -/
theorem restarted_kept {f : Vec n → FVal} {fp : List (ℕ × ℝ)} {p : Params n} {env : Env n} (k : ℕ) {s s' : Strat n}
    {v : FVal} (hf : ∀ k y, env.f k y = f y) (hi : HonestInv f fp p s) (hel : s.initialElitist = true)
    (hv : ValueAt f p s.sol.xmean v) (hfar : ∀ w, ValueAt f p (fun _ => -dblMax) w → FVal.lt v w)
    (h : s.optimize env k = .ok (some s')) : ∃ b, s'.sol.bestSeen = some b ∧ AsGoodAs b.fvalue v := by
  induction k generalizing s v with
  | zero => cases h
  | succ k ih =>
    obtain ⟨s0, s1, s2, b, g0, g1, g2, g3, g4⟩ := Strat.optimize_succ_ok h
    have hi0 := hi.evalInitial hf g0
    have hs0 : ∃ b, s0.sol.bestSeen = some b ∧ AsGoodAs b.fvalue v := by
      unfold Strat.evalInitial at g0
      rw [if_pos (by simp [hel])] at g0
      obtain ⟨y, hy, g0⟩ := Out.bind_eq_ok.1 g0
      injection g0 with g0
      obtain ⟨y', hy', hv'⟩ := hv
      rw [← hi.gp, hy] at hy'
      injection hy' with hy'
      subst hy'
      rw [← g0]
      refine ⟨_, rfl, Or.inl ?_⟩
      show (if s.negate then (env.f s.calls.length y).neg else env.f s.calls.length y) = v
      rw [hf, hi.negate, hv']
    obtain ⟨i1, hb1⟩ := loop_kept (k + 1) hf hi0 hs0 g1
    obtain ⟨i2, e2⟩ := i1.edm g2
    obtain ⟨c, hc1, hc2⟩ := hb1
    rcases g4 with ⟨_, s3, g5, g6⟩ | ⟨_, rfl⟩
    · have hval := i1.seen c hc1
      have hne : c.x ≠ fun _ => -dblMax := by
        intro hx
        rw [hx] at hval
        have := hfar _ hval
        rcases hc2 with h | h
        · rw [h] at this; exact FVal.lt_irrefl _ this
        · exact FVal.lt_asymm h this
      obtain ⟨i3, ex, eel⟩ := i2.restart (e2.trans hc1) hne g5
      obtain ⟨b', h1, h2⟩ := ih i3 eel (by rw [ex]; exact hval) (fun w hw => by
        rcases hc2 with h | h
        · rw [h]; exact hfar w hw
        · exact FVal.lt_trans h (hfar w hw)) g6
      exact ⟨b', h1, h2.trans hc2⟩
    · exact ⟨c, e2.trans hc1, hc2⟩

theorem HonestInv.new {f : Vec n → FVal} {env : Env n} {kind : CovKind} {p : Params n} {s : Strat n}
    (hg : GoodParams p) (hsc : p.gp.scale = .noScaling) (huh : p.uh = false)
    (h : Strat.new env kind p = .ok s) : HonestInv f p.fixedP p s := by
  have hB := begins_new h
  refine ⟨FixInv.new hg hsc h, ?_, ?_, hB.negate, ?_, ?_⟩
  · rw [hB.params]; exact huh
  · rw [hB.params]
  · intro c hc; rw [hB.fresh.bestSeen] at hc; cases hc
  · intro c hc; rw [hB.initialCand] at hc; cases hc

end Libcmaes
