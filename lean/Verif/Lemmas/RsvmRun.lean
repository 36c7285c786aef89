import Verif.Lemmas.RsvmEncode
import Verif.Props.Sampling

/-! # Searches with the ranking SVM, generation after generation -/

namespace Libcmaes

open Spec Surr Matrix

variable {n : ℕ} {env : Env n} {diag : Bool} {us : USort (Cand n)} {usR : USort (RCand n)} {z0 z1 : ℕ → ℝ}
  {iter : ℤ} {u : ℕ → ℝ}

theorem PD.inj {C : Mat n} (h : PD C) : Function.Injective C.mulVec := by
  intro a b hab
  by_contra hne
  have h1 := h.pos (a - b) (sub_ne_zero.2 hne)
  have h2 : C.mulVec (a - b) = 0 := by rw [mulVec_sub, hab, sub_self]
  unfold quad at h1
  rw [h2] at h1
  simp at h1

theorem factor_inj {A C : Mat n} (h : PD C) (hA : A * Aᵀ = C) : Function.Injective A.mulVec := by
  have h1 : IsUnit C := mulVec_injective_iff_isUnit.1 (PD.inj h)
  rw [← hA] at h1
  have h2 : IsUnit A := by
    rw [isUnit_iff_isUnit_det] at h1 ⊢
    rw [det_mul] at h1
    exact isUnit_of_mul_isUnit_left h1
  exact mulVec_injective_iff_isUnit.2 h2

/-- Different random vectors give different points. -/
theorem ask_nodup {s s1 : Strat n} {pop : List (Vec n)} (hsig : 0 < s.sol.sigma) (hvd : s.p.vd = false)
    (hg : s.p.withGradient = false) (ht : s.p.tpa ≠ 2) (hlz : s.p.lazyUpdate = false) (hfix : s.p.fixedP = [])
    (hsep : s.p.sep = true → ∀ i, 0 < s.sol.sepcov i) (hfull : s.p.sep = false → PD s.sol.cov)
    (hz : Function.Injective env.z) (h : s.ask env = .ok (pop, s1)) : pop.Nodup := by
  have hlen := (Strat.ask_frame h).2
  have hfree : ∀ i, Free s.p i := fun i v hv => by rw [hfix] at hv; cases hv
  obtain ⟨F, hF, hx⟩ : ∃ F : Vec n → Vec n, Function.Injective F ∧ ∀ j < s.p.lambda, pop[j]? = some (F (env.z (s.nz + j))) := by
    cases hs : s.p.sep with
    | true =>
      obtain ⟨_, h2⟩ := C19_sep env s s1 pop hs hg (Or.inl ht) h
      refine ⟨fun z i => s.sol.xmean i + s.sol.sigma * (Real.sqrt (s.sol.sepcov i) * z i), fun a b hab => ?_, fun j hj => ?_⟩
      · funext i
        have h1 := congrFun hab i
        simp only at h1
        have h3 := mul_left_cancel₀ hsig.ne' (add_left_cancel h1)
        exact mul_left_cancel₀ (Real.sqrt_pos.2 (hsep hs i)).ne' h3
      · obtain ⟨x, e1, e2⟩ := h2 j hj
        rw [e1]
        congr 1
        funext i
        exact e2 i (hfree i)
    | false =>
      have hP := hfull hs
      obtain ⟨A, hA, h2⟩ := C19_full env.eig s.sol.cov ⟨hP.symm, fun x => by
        by_cases h0 : x = 0
        · rw [h0]; unfold quad; simp
        · exact (hP.pos x h0).le⟩
      refine ⟨fun z i => s.sol.xmean i + s.sol.sigma * A.mulVec z i, fun a b hab => ?_, fun j hj => ?_⟩
      · refine factor_inj hP hA ?_
        funext i
        have h1 := congrFun hab i
        simp only at h1
        exact mul_left_cancel₀ hsig.ne' (add_left_cancel h1)
      · obtain ⟨x, e1, e2⟩ := h2 env s s1 pop rfl rfl hs hvd hg (Or.inl ht) (Or.inl hlz) h j hj
        rw [e1]
        congr 1
        funext i
        exact e2 i (hfree i)
  rw [List.nodup_iff_getElem?_ne_getElem?]
  intro i j hij hj
  rw [hlen] at hj
  rw [hx i (by omega), hx j hj]
  intro he
  have := hz (hF (Option.some.inj he))
  omega

/-- What makes the next generation go on, unless training points coincide. -/
structure RsvmGo (d : Bool) (t : Surr n (Ranker n)) : Prop extends RsvmLive d t where
  apart : t.s.niter ≠ 0 → Apart d t.s
  csq : t.s.sol.hasCsq = true → t.s.niter ≠ 0

theorem rsvmGo_cases {t : Surr n (Ranker n)} (hf : ∀ k y, (env.f k y).IsNum)
    (hgp : ∀ x : Vec n, ∃ y, phenoV t.s.p.gp x = .ok y) (hL : RsvmGo diag t)
    (hsel : Selects (rsvmFuncs diag us usR z0 z1 iter u) t) :
    ∃ (F : ℕ) (t' : Surr n (Ranker n)) (c : List (Vec n × FVal)) (added : List (Cand n)),
      AcmStep env (rsvmSafe diag us usR z0 z1 iter u) t t' c added ∧
      (((∀ fuel ≥ F, t.acmGeneration env (rsvmFuncs diag us usR z0 z1 iter u) fuel = .ok (some t')) ∧
          RsvmGo diag t') ∨
        (∀ fuel ≥ F, t.acmGeneration env (rsvmFuncs diag us usR z0 z1 iter u) fuel = .error .notReal) ∧
          t'.full = true ∧ ¬ (t'.tset.map fun a => a.x).Nodup) := by
  obtain ⟨F, t', h1, h2⟩ := rsvmGeneration_cases (diag := diag) (us := us) (usR := usR) (z0 := z0) (z1 := z1)
    (iter := iter) (u := u) hf hgp hL.toRsvmLive hsel
  obtain ⟨c, added, hst⟩ := acmGeneration_step hL.live.uh hL.live.grad hL.live.cands
    (by have := hL.live.good.lambda; omega) (h1 F le_rfl)
  obtain ⟨F', t2, g1, g2⟩ := acmGeneration_total (rsvmSafe_sane (diag := diag) (us := us) (usR := usR) (z0 := z0)
    (z1 := z1) (iter := iter) (u := u) hf) hgp (fun _ => ⟨hsel.pre, hsel.prime, hsel.draws0, hsel.draws1⟩)
    hL.toAcmLive
  have e : t2 = t' := by
    have a1 := h1 (max F F') (le_max_left _ _)
    have a2 := g1 (max F F') (le_max_right _ _)
    rw [a1] at a2
    exact (Option.some.inj (Except.ok.inj a2)).symm
  rw [e] at g2
  have hni : t'.s.niter ≠ 0 := by rw [hst.niter]; omega
  have hap : Apart diag t'.s := by
    have := apart_generation hL.live.toLiveCore g2.live.toLiveCore (by rw [← hL.diag]; exact hL.apart) hL.csq (h1 F le_rfl)
    rw [← hL.diag] at this
    exact this
  refine ⟨F, t', c, added, hst, ?_⟩
  rcases h2 with ⟨a1, a2⟩ | ⟨a1, a2, a3⟩
  · exact Or.inl ⟨a1, a2, fun _ => hap, fun _ => hni⟩
  · refine Or.inr ⟨a1, a2, fun hnd => a3 ?_⟩
    have hinj : Function.Injective (encoded diag (told t'.s.sol)) := hap.inj
    have := hnd.map hinj
    rw [List.map_map] at this
    exact this

theorem rsvmGo_start {kind : CovKind} {p : Params n} {t : Surr n (Ranker n)} (hu : Usual kind p)
    (h : AcmStart env kind p none t) (hl : 2 ≤ t.l) (hd : diag = p.sep) : RsvmGo diag t := by
  have hL := acmLive_start hu h
  obtain ⟨⟨s, cr, hs, e, _⟩, h1, h2, _⟩ := acmStart_ok h
  obtain ⟨hp, hni, _⟩ := acmStart_lambda h
  have hcsq : t.s.sol.hasCsq = false := by
    rw [e]
    unfold Strat.new at hs
    obtain ⟨⟨p', sol⟩, hm, hs⟩ := Out.bind_eq_ok.1 hs
    rw [← Except.ok.inj hs]
    show sol.hasCsq = false
    unfold Sol.make at hm
    obtain ⟨m, _, hm⟩ := Out.bind_eq_ok.1 hm
    by_cases hc : p.lambda = 0 ∨ n = 0
    · rw [if_pos hc] at hm; cases hm
    · rw [if_neg hc] at hm
      rw [← (Prod.mk.inj (Except.ok.inj hm)).2]
  refine ⟨⟨hL, hl, by rw [h2]; simp; omega, fun hf => ?_, by rw [hp]; exact hd⟩, fun h0 => absurd hni h0, fun h0 => ?_⟩
  · unfold full at hf
    rw [h2] at hf
    simp at hf
    omega
  · rw [hcsq] at h0; cases h0

/-- The settings under which no two points of the training set coincide: each generation replaces the whole training
set by newly sampled points. -/
structure AllNew (t : Surr n (Ranker n)) : Prop where
  lazy : t.s.p.lazyUpdate = false
  fixed : t.s.p.fixedP = []
  elitist : t.s.elitismOn = false
  l : t.l ≤ t.s.p.lambda
  prime : t.l ≤ t.lambdaprime

theorem rsvm_nodup {t t' : Surr n (Ranker n)} {c : List (Vec n × FVal)} {added : List (Cand n)}
    (hz : Function.Injective env.z) (hL : RsvmGo diag t) (hA : AllNew t)
    (hst : AcmStep env (rsvmSafe diag us usR z0 z1 iter u) t t' c added) : (t'.tset.map fun a => a.x).Nodup := by
  have hts : t.begun.tset = t.tset := begun_tset (by
    by_cases h0 : t.s.niter = 0
    · exact Or.inr (hL.fresh h0)
    · exact Or.inl h0)
  have hl := hL.l
  have hle := hL.le
  have hAl := hA.l
  have hset : t'.tset = lastN t.l.toNat (t.tset ++ added) := by
    rw [hst.tset, hts, ← foldl_push, lastN_self (by omega)]
  have hask : ∀ {k : ℕ} {pop : List (Vec n)} {s1 : Strat n},
      ({ t.s with p := { t.s.p with lambda := k } }).ask env = .ok (pop, s1) → pop.Nodup := fun {k} _ _ h =>
    ask_nodup (s := { t.s with p := { t.s.p with lambda := k } }) hL.live.sigma hL.live.vd hL.live.grad hL.live.tpa
      hA.lazy hA.fixed (fun hs => (hL.live.sep hs).2) (fun hs => (hL.live.full hs).2.1) hz h
  obtain ⟨h1, h2⟩ : (added.map fun a => a.x).Nodup ∧ t.l ≤ added.length := by
    cases hb : (t.exploit && t.begun.full) with
    | true =>
      obtain ⟨pop, t1, pr, E, rest, L, a1, a2, a3, hP, a4, a5, a6, _⟩ := hst.pre hb
      rw [acmAsk_eq, if_pos hb] at a1
      by_cases hneg : t.begun.prelambda < 0
      · rw [if_pos hneg] at a1; cases a1
      rw [if_neg hneg] at a1
      obtain ⟨⟨pop', s1⟩, ha, a1⟩ := Out.bind_eq_ok.1 a1
      obtain ⟨rfl, -⟩ := Prod.mk.inj (Except.ok.inj a1)
      have hpop := hask ha
      have hpr : pr.map (fun a => a.x) = pop' := by
        rw [← Except.ok.inj a3, List.map_map, List.map_map]
        exact List.map_id pop'
      have hE : (E.map fun q => q.2.x).Nodup := by
        have b1 : ((L.map Prod.snd).map fun a => a.x).Subperm pop' := by
          rw [← hpr]
          obtain ⟨w, w1, w2⟩ := hP.distinct
          exact ⟨w.map _, w1.map _, w2.map _⟩
        have b2 : ((L.map Prod.snd).map fun a => a.x).Nodup := by
          obtain ⟨w, w1, w2⟩ := b1
          exact w1.nodup_iff.1 (hpop.sublist w2)
        rw [List.map_map] at b2
        have b3 := (hP.parts.map ((fun a : Cand n => a.x) ∘ Prod.snd)).nodup_iff.1 b2
        rw [List.map_append] at b3
        exact (List.nodup_append.1 b3).1
      have hE2 : (E.map fun q => q.2.x) = (added.map fun a => a.x) := by
        rw [a5, List.map_map]
        refine List.map_congr_left fun q hq => ?_
        exact (hP.same q (hP.parts.symm.subset (List.mem_append_left _ hq))).symm
      refine ⟨by rw [← hE2]; exact hE, ?_⟩
      have := hP.evaluated.length_eq
      rw [← a5] at this
      have hp := hA.prime
      omega
    | false =>
      obtain ⟨pop, s1, a1, a2⟩ := hst.points hb hA.elitist
      have hl2 := (Strat.ask_frame a1).2
      refine ⟨by rw [a2]; exact hask (k := t.s.p.lambda) a1, ?_⟩
      have := congrArg List.length a2
      rw [List.length_map, hl2] at this
      omega
  rw [hset]
  have h3 : lastN t.l.toNat (t.tset ++ added) = added.drop (added.length - t.l.toNat) := by
    unfold lastN
    rw [List.length_append, List.drop_append, List.drop_eq_nil_of_le (by omega), List.nil_append]
    congr 1
    omega
  rw [h3, List.map_drop]
  exact h1.sublist (List.drop_sublist _ _)

end Libcmaes
