import Verif.Lemmas.Total
import Verif.Lemmas.Strict
import Verif.Lemmas.PwqVec
import Verif.Lemmas.Env
import Mathlib.Analysis.SpecialFunctions.Trigonometric.Inverse

/-! # Set-ups for which runs exist -/

namespace Libcmaes

open Spec

variable {n : ℕ}

theorem phenoV_plain (x : Vec n) : phenoV GenoPheno.plain x = .ok x := by
  unfold phenoV
  show (Except.ok (GenoPheno.plain.applyPheno (List.ofFn x)) >>= _) = _
  rw [Out.ok_bind]
  exact toVec_ofFn x

theorem phenoCols_plain {s : Strat n} (h : s.p.gp = GenoPheno.plain) (pop : List (Vec n)) :
    s.phenoCols pop = .ok pop := by
  unfold Strat.phenoCols
  rw [h]
  induction pop with
  | nil => rfl
  | cons a l ih => rw [List.mapM_cons, phenoV_plain, Out.ok_bind, ih]; rfl

/-- Settings after the constructor. -/
theorem Params.make_plain {x0 : Vec n} {sigma : ℝ} {lambda : ℤ} {seed clock : ℕ} {gp : GenoPheno}
    {p : Params n} (h : Params.make x0 sigma lambda seed clock gp = .ok p) :
    p.uh = false ∧ p.withGradient = false ∧ p.tpa ≠ 2 ∧ p.initialElitist = false ∧ p.elitist = false ∧
      p.initialElitistOnRestart = false ∧ p.initialFvalue = false ∧ p.maximize = false ∧ p.mtFeval = false ∧
      p.gp = gp ∧ p.fixedP = [] ∧ p.x0min = x0 ∧ p.x0max = x0 ∧ p.sigmaInit = sigma := by
  unfold Params.make at h
  obtain ⟨l, -, h⟩ := Out.bind_eq_ok.1 h
  obtain ⟨mu, w, muw, cs, cc, c1, cm, ds, fs, fc, ch, lv, rl, al, e⟩ := initializeParameters_frame h
  rw [e]
  refine ⟨rfl, rfl, ?_, rfl, rfl, rfl, rfl, rfl, rfl, rfl, rfl, rfl, rfl, rfl⟩
  simp [Params.blank]

/-- `ask` succeeds on a fresh strategy. -/
theorem askLive_new {env : Env n} {kind : CovKind} {p : Params n} {s : Strat n} (hc : Configured p)
    (hvd : p.vd = false) (hgr : p.withGradient = false) (htpa : p.tpa ≠ 2)
    (h : Strat.new env kind p = .ok s) : AskLive s := by
  obtain ⟨h1, h2, h3, h4, h5, h6, h7, h8, h9, h10, h11, h12, h13, h14, h15, h16, h17, h18, h19, h20⟩ :=
    Strat.new_ok h
  refine ⟨by rw [h4]; exact (hc.with_sigmaInit _).fixed_lt, by rw [h4]; exact hvd, by rw [h4]; exact hgr,
    fun hs => ?_, fun hs => ?_, fun h _ => absurd h (by rw [h4]; exact htpa)⟩
  · have : p.sep = false := by rw [h4] at hs; exact hs
    exact ⟨by rw [h11, this, hvd]; rfl, fun h => absurd h7 h⟩
  · have : p.sep = true := by rw [h4] at hs; exact hs
    exact ⟨by rw [h12, this]; rfl, fun i => by rw [h6.sepcov i]; norm_num⟩

/-- Default parameters are `Usual` for both updates. -/
theorem usual_default {x0 : Vec n} {sigma : ℝ} {lambda : ℤ} {seed clock : ℕ} {gp : GenoPheno} {p : Params n}
    (hl : lambda < 2) (hm : Params.make x0 sigma lambda seed clock gp = .ok p) {kind : CovKind}
    (hk : kind ≠ .vd) : Usual kind p ∧ p.gp = gp ∧ p.fixedP = [] ∧ p.sigmaInit = sigma ∧ p.x0min = x0 ∧
      p.x0max = x0 := by
  have hs := (strictRates_default hl hm).1
  have hc : Configured p := .make hm
  unfold Params.make at hm
  obtain ⟨l, -, hm⟩ := Out.bind_eq_ok.1 hm
  obtain ⟨mu, w, muw, cs, cc, c1, cm, ds, fs, fc, ch, lv, rl, al, e⟩ := initializeParameters_frame hm
  refine ⟨⟨⟨hc, hs, hk, ?_, ?_, ?_, ?_, ?_⟩, ?_, ?_⟩, ?_, ?_, ?_, ?_, ?_⟩
  all_goals rw [e]
  all_goals simp [Params.blank]

theorem new_unscaled {env : Env n} {kind : CovKind} {p : Params n} (hgp : p.gp.scale = .noScaling)
    (hg : GoodParams p) : ∃ s, Strat.new env kind p = .ok s := by
  have h1 : ∃ m, initialMean p (env.rnd 0) = .ok m := by
    unfold initialMean
    simp only
    obtain ⟨m, hm⟩ := (setFixed_ok_iff p.fixedP (if p.x0min = p.x0max then
      if p.x0min = fun _ => -dblMax then fun i => env.rnd 0 i * 4 else p.x0min
      else fun i => 0.5 * (env.rnd 0 i + 1) * (p.x0max i - p.x0min i) + p.x0min i)).2 hg.fixed_lt
    rw [hm, Out.ok_bind]
    unfold scaleToInternalV
    rw [hgp]
    exact ⟨m, rfl⟩
  obtain ⟨m, hm⟩ := h1
  unfold Strat.new Sol.make
  rw [hm, Out.ok_bind, if_neg (by have := hg.dim; have := hg.lambda; omega)]
  exact ⟨_, rfl⟩

theorem new_plain {env : Env n} {kind : CovKind} {p : Params n} (hgp : p.gp = GenoPheno.plain)
    (hg : GoodParams p) : ∃ s, Strat.new env kind p = .ok s := new_unscaled (by rw [hgp]; rfl) hg

/-- Settings stay `Usual` when a coordinate is fixed. -/
theorem usual_fix {kind : CovKind} {p : Params n} {i : ℕ} {v : ℝ} (hu : Usual kind p) (hi : i < n)
    (hl : p.fixedP.length + 1 < n) : Usual kind (p.setFixedP i v) :=
  ⟨⟨.call (c := .fix i v) hu.configured (fun j w h => by injection h with h1 h2; exact ⟨h1 ▸ hi, hl⟩) rfl,
    ⟨hu.strict.lt_one, hu.strict.active⟩, hu.update, hu.vd, hu.lazy, hu.grad, hu.initialElitist,
    hu.elitist⟩, hu.uh, hu.tpa⟩

/-- Linear scaling by 2 in each coordinate. -/
def doubled (n : ℕ) : GenoPheno :=
  GenoPheno.ofVectorsNoBound (List.ofFn fun _ : Fin n => (2 : ℝ)) (List.ofFn fun _ : Fin n => (0 : ℝ))

theorem phenoV_doubled (x : Vec n) : phenoV (doubled n) x = .ok fun i => x i / 2 := by
  unfold phenoV
  show ((LinScaling.ofVectors _ _).toF (List.ofFn x) >>= _) = _
  unfold LinScaling.toF LinScaling.ofVectors
  simp only
  rw [cwise_ok _ (by simp), Out.ok_bind, cwise_div (by simp) (by simp), Out.ok_bind, toVec_eq_ok]
  apply List.ext_getElem
  · simp
  · intro i h1 h2; simp

theorem scaleToInternalV_doubled (x : Vec n) : scaleToInternalV (doubled n) x = .ok fun i => x i * 2 := by
  unfold scaleToInternalV doubled GenoPheno.ofVectorsNoBound LinScaling.ofVectors
  simp only
  rw [if_neg (by simp)]
  unfold LinScaling.toInternal
  simp only
  rw [cwise_ok _ (by simp), Out.ok_bind, cwise_ok _ (by simp), Out.ok_bind, toVec_eq_ok]
  apply List.ext_getElem
  · simp
  · intro i h1 h2; simp

/-- A user transform: the sine of each coordinate. -/
noncomputable def sineCustom : Custom where
  genof v := v.map Real.arcsin
  phenof v := v.map Real.sin
  genof_length v := by simp
  phenof_length v := by simp

/-- Bounds `[-1,1]` in each coordinate after that. -/
noncomputable def sineBox (n : ℕ) : GenoPheno :=
  GenoPheno.ofBounds (some sineCustom) (List.ofFn fun _ : Fin n => (-1 : ℝ)) (List.ofFn fun _ : Fin n => (1 : ℝ))

/-- This transform never fails. -/
theorem phenoV_sineBox (x : Vec n) : ∃ y, phenoV (sineBox n) x = .ok y := by
  have h1 : ((List.ofFn x).map Real.sin).length = n := by simp
  have h2 : ∃ l, (sineBox n).pheno (List.ofFn x) = .ok l := by
    show ∃ l, (Pwq.ofBounds _ _).toF ((List.ofFn x).map Real.sin) = .ok l
    cases h : (Pwq.ofBounds (List.ofFn fun _ : Fin n => (-1 : ℝ)) (List.ofFn fun _ : Fin n => (1 : ℝ))).toF
      ((List.ofFn x).map Real.sin) with
    | ok l => exact ⟨l, rfl⟩
    | error e =>
      exfalso
      obtain ⟨i, l, u, a, hl, hu, ha, he⟩ := Pwq.toF_eq_error (by simp) (by simp) h
      have hi : i < n := by
        have := (List.getElem?_eq_some_iff.1 ha).1; omega
      rw [List.getElem?_eq_getElem (by simpa using hi)] at hl hu ha
      simp only [List.getElem_ofFn, List.getElem_map, Option.some.injEq] at hl hu ha
      subst hl hu
      rw [PwqCoord.toF_central (by norm_num)] at he
      · cases he
      · have := Real.neg_one_le_sin (x ⟨i, hi⟩)
        rw [← ha]
        have : 0 ≤ marginL (-1) 1 := by unfold marginL; norm_num
        linarith
      · have := Real.sin_le_one (x ⟨i, hi⟩)
        rw [← ha]
        have : 0 ≤ marginU (-1) 1 := by unfold marginU; norm_num
        linarith
  obtain ⟨l, hl⟩ := h2
  have hlen : l.length = n := by
    have h : (Pwq.ofBounds5 _ _ _ _).toF ((List.ofFn x).map Real.sin) = .ok l := hl
    have := (Pwq.toF_eq_ok_iff (by simp) (by simp)).1 h
    rw [← this.1, h1]
  refine ⟨fun i => l[i.val]'(by rw [hlen]; exact i.isLt), ?_⟩
  unfold phenoV
  rw [hl, Out.ok_bind, toVec_eq_ok]
  apply List.ext_getElem
  · simp [hlen]
  · intro i h1 h2; simp

end Libcmaes
