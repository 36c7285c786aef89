import Verif.Lemmas.Relabel
import Verif.Props.Unit

/-!
# C118: objectives that rank alike end alike

`relabel`, `seenMap`: Spec/Relabel.lean; `BlindToValues`, `SameEnd`: Spec/Shift.lean; `ValObjective`, `CritActive`, `UniqueKeys`:
Spec/Stop.lean; `UsualRun`: Spec/Usual.lean.
-/

namespace Libcmaes

open Spec Finset

variable {n : ℕ}

/-- **C118.** Let `g` be strictly increasing.  Searching `g ∘ f` in place of `f`, with the target `g target`, TOLHISTFUN and STAGNATION
switched off, `optimize()` goes through the same search to the end: it stops after the same number of iterations and evaluations, for
the same reason, with the same distribution and the same points, whose values are those of `g ∘ f`.  All the other stopping criteria,
elitism but that on restart, bounds, scaling, fixed parameters; full or diagonal covariance, default or active update.  An infinite
target means none; hence it has to stay infinite. -/
theorem C118_ranking (env : Env n) (kind : CovKind) (p : Params n) (g : EReal → EReal) (s : Strat n) (hu : UsualRun kind p)
    (hpos : StrictMono g) (htop : seenMap p.maximize g ⊤ = ⊤) (hk : UniqueKeys p) (hq : ¬ CritActive p 1) (hq6 : ¬ CritActive p 6)
    (he : p.withEdm = false) (hr : p.initialElitistOnRestart = false) (hb : BlindToValues env) (hv : ValObjective env p)
    (hv' : ValObjective { env with f := fun k x => relabel g (env.f k x) } p) (h0 : Strat.new env kind p = .ok s) :
    ∃ s', Strat.new { env with f := fun k x => relabel g (env.f k x) } kind
        { p with ftarget := relabel (seenMap p.maximize g) p.ftarget } = .ok s' ∧
      ∀ fuel,
        (∀ t, s.optimize env fuel = .ok (some t) →
          ∃ t', s'.optimize { env with f := fun k x => relabel g (env.f k x) } fuel = .ok (some t') ∧
            SameEnd (relabel (seenMap p.maximize g)) t t') ∧
        (s.optimize env fuel = .ok none →
          s'.optimize { env with f := fun k x => relabel g (env.f k x) } fuel = .ok none) := by
  set env' : Env n := { env with f := fun k x => relabel g (env.f k x) } with henv'
  set D := relAff n (seenMap p.maximize g) p.maximize p.ftarget with hD
  have hpar : D.par p = { p with ftarget := relabel (seenMap p.maximize g) p.ftarget } := by rw [hD, relAff_par]
  have hE : RelEnv (seenMap p.maximize g) p.maximize env env' := ⟨rfl, rfl, rfl, rfl, rfl, fun k x => neg_relabel g _ _, seenMap_mono hpos _, htop, hb, hv, hv'⟩
  obtain ⟨J, r0, hc⟩ := Aff.new_map (D := D) one_pos (env' := env') rfl (Or.inr rfl)
    (fun m hm => by rw [hpar, hD, relAff_pt]; exact hm) h0
  have hfl : FlagsOf p s.crit := new_crit h0 hk
  have hB := begins_new h0
  have hneg : s.negate = p.maximize := hB.negate
  have hsp := hB.params
  have hg := hu.good
  have hg' : GoodRun kind (D.par p) := by
    rw [hpar]
    exact ⟨⟨hg.good.dim, hg.good.lambda, hg.good.mu, ⟨hg.good.weights.1, hg.good.weights.2, hg.good.weights.3, hg.good.weights.4⟩,
      by cases hg.good.rates; constructor <;> assumption, hg.good.muw, hg.good.chi, hg.good.alphathuh, hg.good.rlambda, hg.good.fixed_lt, hg.good.fixed_nodup,
      hg.good.fixed_len⟩, ⟨hg.strict.1, hg.strict.2⟩, hg.update, hg.vd, hg.lazy, hg.grad, hg.uh, hg.tpa⟩
  refine ⟨D.st J s, by rw [← hpar]; exact r0, ?_⟩
  have key : ∀ fuel o, s.optimize env fuel = .ok o → match o with
      | none => (D.st J s).optimize env' fuel = .ok none
      | some t => ∃ t', (D.st J s).optimize env' fuel = .ok (some t') ∧ SameEnd (relabel (seenMap p.maximize g)) t t' := by
    intro fuel o h
    cases fuel with
    | zero => injection h with h; subst h; rfl
    | succ k =>
      unfold Strat.optimize at h
      obtain ⟨s0, h1, h⟩ := Out.bind_eq_ok.1 h
      obtain ⟨o1, h2, h⟩ := Out.bind_eq_ok.1 h
      obtain ⟨J0, r1, hc0⟩ := evalInitial_relabel hE hc hneg h1
      obtain ⟨k1, k2, k3, k4, k5, k6, k7, k8, k9⟩ := evalInitial_kept h1
      obtain ⟨hL, hR⟩ := start_live hg hB (esSound_new h0) h1 hv
      obtain ⟨hL', hR'⟩ := start_live hg' (begins_new r0) (esSound_new r0) r1 (by rw [hpar]; exact hv')
      have hP : RelPair (seenMap p.maximize g) p.maximize p.ftarget J0 s0 := by
        refine ⟨hc0, hL, hR, hL', hR', fun hn => absurd ?_ hn, by rw [k5, hneg],
          by rw [k1, hsp], by rw [k1, hsp]; exact hg.grad, by rw [k1, hsp]; exact hg.good.weights.sum_one,
          by rw [k1, hsp]; exact he, by rw [k1, hsp]; exact hr,
          fun h => hq ((hfl.mem 1).1 (by rw [← k2]; exact h)), fun h => hq6 ((hfl.mem 6).1 (by rw [← k2]; exact h))⟩
        rw [k3, hB.niter]
      have hl := hP.loop hE (k + 1) h2
      cases o1 with
      | none =>
        injection h with h
        subst h
        show (D.st J s).optimize env' (k + 1) = .ok none
        unfold Strat.optimize
        rw [r1, Out.ok_bind, hl, Out.ok_bind]
        rfl
      | some t =>
        obtain ⟨J1, r2, hP1⟩ := hl
        have hew := hP1.edm
        have her := hP1.restart
        simp only [hew, Bool.false_eq_true, if_false] at h
        change (t.wantsRestart >>= _) = _ at h
        rw [wantsRestart_off her, Out.ok_bind] at h
        injection h with h
        subst h
        refine ⟨D.st J1 t, ?_, ⟨rfl, rfl, rfl, relAff_same, fun hn => ?_⟩⟩
        · unfold Strat.optimize
          rw [r1, Out.ok_bind, r2, Out.ok_bind]
          show (if t.p.withEdm then (D.st J1 t).edm env' else pure (D.st J1 t)) >>= _ = _
          rw [hew]
          show ((D.st J1 t).wantsRestart >>= _) = _
          rw [wantsRestart_off (s := D.st J1 t) her, Out.ok_bind]
          rfl
        · have := Aff.points (D := D) (J := J1) (s := t) (hP1.past hn).2 (hP1.past hn).1
          rw [hD, relAff_pt] at this
          exact this
  exact fun fuel => ⟨fun t h => key fuel _ h, fun h => key fuel _ h⟩

/-- The hypotheses of C118 on the settings are met by default parameters with the two criteria switched off, in every dimension and for
every starting point. -/
theorem C118_case (hn : 1 ≤ n) (kind : CovKind) (x0 : Vec n) (sigma : ℝ) (seed clock : ℕ) (hk : kind ≠ .vd) (env : Env n) :
    ∃ p s, Params.make x0 sigma (-1) seed clock GenoPheno.plain = .ok p ∧
      UsualRun kind { p with stoppingCrit := [(1, false), (6, false)] } ∧
      UniqueKeys { p with stoppingCrit := [(1, false), (6, false)] } ∧
      ¬ CritActive { p with stoppingCrit := [(1, false), (6, false)] } 1 ∧
      ¬ CritActive { p with stoppingCrit := [(1, false), (6, false)] } 6 ∧
      CritActive { p with stoppingCrit := [(1, false), (6, false)] } 5 ∧
      p.withEdm = false ∧ p.initialElitistOnRestart = false ∧
      Strat.new env kind { p with stoppingCrit := [(1, false), (6, false)] } = .ok s := by
  obtain ⟨p, hp, _⟩ := C11_weights hn x0 sigma (-1) seed clock GenoPheno.plain
  obtain ⟨hu, hgp, _⟩ := usual_default (by norm_num) hp hk
  have hu' := usual_crit hu.run [(1, false), (6, false)]
  obtain ⟨s, hs⟩ := new_plain (env := env) (kind := kind) (p := { p with stoppingCrit := [(1, false), (6, false)] }) hgp hu'.configured.good.1
  refine ⟨p, s, hp, hu', ?_, ?_, ?_, ?_, ?_, (Params.make_plain hp).2.2.2.2.2.1, hs⟩
  · show [(1 : ℤ), 6].Nodup
    simp
  · exact fun h => h.2 List.mem_cons_self
  · exact fun h => h.2 (List.mem_cons_of_mem _ List.mem_cons_self)
  · exact ⟨by decide, by simp⟩
  · unfold Params.make at hp
    obtain ⟨l, -, hp⟩ := Out.bind_eq_ok.1 hp
    obtain ⟨mu, w, muw, cs, cc, c1, cm, ds, fs, fc, ch, lv, rl, al, e⟩ := initializeParameters_frame hp
    rw [e]; rfl

/-- A change of values that is not linear, admissible for minimising and for maximising: positive values are doubled. -/
theorem C118_example : (StrictMono fun a : EReal => if a ≤ 0 then a else a * ((2 : ℝ) : EReal)) ∧
    ∀ b, seenMap b (fun a : EReal => if a ≤ 0 then a else a * ((2 : ℝ) : EReal)) ⊤ = ⊤ := by
  constructor
  · intro a b h
    by_cases hb : b ≤ 0
    · simp only [if_pos hb, if_pos (h.le.trans hb)]
      exact h
    · have hb' : 0 < b * ((2 : ℝ) : EReal) := by
        have := (mulc_lt two_pos (a := 0) (b := b)).2 (not_le.1 hb)
        rwa [zero_mul] at this
      by_cases ha : a ≤ 0
      · simp only [if_pos ha, if_neg hb]
        exact lt_of_le_of_lt ha hb'
      · simp only [if_neg ha, if_neg hb]
        exact (mulc_lt two_pos).2 h
  · intro b
    cases b with
    | false =>
      show (if (⊤ : EReal) ≤ 0 then ⊤ else ⊤ * ((2 : ℝ) : EReal)) = ⊤
      rw [if_neg (by simp), EReal.top_mul_coe_of_pos two_pos]
    | true =>
      show -(if (-⊤ : EReal) ≤ 0 then -⊤ else -⊤ * ((2 : ℝ) : EReal)) = ⊤
      rw [if_pos (by simp), neg_neg]

end Libcmaes
