import Verif.Model.Sigmas
import Verif.Lemmas.Neutral
import Verif.Lemmas.RestartRun

/-!
# Lemmas on the constructor with a vector of step sizes
-/

namespace Libcmaes

open Spec

variable {n : ℕ}

/-- Linear scaling by the vector `a`, without shift. -/
def scaledBy (a : Vec n) : GenoPheno := GenoPheno.ofVectorsNoBound (List.ofFn a) (List.replicate n 0)

theorem phenoV_scaledBy {a : Vec n} (ha : ∀ i, a i ≠ 0) (x : Vec n) : phenoV (scaledBy a) x = .ok fun i => x i / a i := by
  unfold phenoV
  show ((LinScaling.ofVectors _ _).toF (List.ofFn x) >>= _) = _
  unfold LinScaling.toF LinScaling.ofVectors
  simp only
  rw [cwise_ok _ (by simp), Out.ok_bind, cwise_div (by simp) (by simpa [List.mem_ofFn] using ha), Out.ok_bind, toVec_eq_ok]
  apply List.ext_getElem
  · simp
  · intro i h1 h2; simp

theorem scaleToInternalV_scaledBy (a x : Vec n) : scaleToInternalV (scaledBy a) x = .ok fun i => x i * a i := by
  unfold scaleToInternalV scaledBy GenoPheno.ofVectorsNoBound LinScaling.ofVectors
  simp only
  rw [if_neg (by simp)]
  unfold LinScaling.toInternal
  simp only
  rw [cwise_ok _ (by simp), Out.ok_bind, cwise_ok _ (by simp), Out.ok_bind, toVec_eq_ok]
  apply List.ext_getElem
  · simp
  · intro i h1 h2; simp

theorem inverses_ok {s : Vec n} (hs : ∀ i, s i ≠ 0) :
    (List.ofFn s).mapM (divR 1) = .ok (List.ofFn fun i => 1 / s i) := by
  rw [Out.mapM_eq_ok]
  refine List.forall₂_iff_get.2 ⟨by simp, fun i h1 h2 => ?_⟩
  simp only [List.get_eq_getElem, List.getElem_ofFn, divR]
  rw [if_neg (hs _)]

theorem min_ofFn {s : Vec n} {m : ℝ} (h : (List.ofFn s).min? = some m) : (∀ i, m ≤ s i) ∧ ∃ i, m = s i := by
  rw [List.min?_eq_some_iff] at h
  obtain ⟨h1, h2⟩ := h
  refine ⟨fun i => h2 _ (by simp [List.mem_ofFn]), ?_⟩
  rw [List.mem_ofFn] at h1
  obtain ⟨i, hi⟩ := h1
  exact ⟨i, hi.symm⟩

/-- The constructor is the one with a single step size, the smallest, and with the transform of the scaling. -/
theorem makeSigmas_ok {bounded scaled : Bool} {x0 s : Vec n} {lambda : ℤ} {lb ub : List ℝ} {seed clock : ℕ} {p : Params n}
    (hs : ∀ i, s i ≠ 0) (h : Params.makeSigmas bounded scaled x0 (List.ofFn s) lambda lb ub seed clock = .ok p) :
    ∃ m gp, (∀ i, m ≤ s i) ∧ (∃ i, m = s i) ∧
      GenoPheno.ofScaling bounded scaled (List.ofFn fun i => 1 / s i) (List.replicate n 0) lb ub = .ok gp ∧
      Params.make x0 m lambda seed clock gp = .ok p := by
  unfold Params.makeSigmas at h
  obtain ⟨l, hl, h⟩ := Out.bind_eq_ok.1 h
  rw [if_neg (by simp), inverses_ok hs, Out.ok_bind] at h
  obtain ⟨gp, hgp, h⟩ := Out.bind_eq_ok.1 h
  rcases hm : (List.ofFn s).min? with _ | m
  · rw [hm] at h; cases h
  · rw [hm] at h
    obtain ⟨h1, h2⟩ := min_ofFn hm
    refine ⟨m, gp, h1, h2, hgp, ?_⟩
    unfold Params.make
    rw [hl]
    exact h

/-- The constructor succeeds whenever the transform does. -/
theorem makeSigmas_total (hn : 1 ≤ n) {bounded scaled : Bool} (x0 s : Vec n) (lambda : ℤ) (lb ub : List ℝ) (seed clock : ℕ)
    (hs : ∀ i, s i ≠ 0) {gp : GenoPheno}
    (hgp : GenoPheno.ofScaling bounded scaled (List.ofFn fun i => 1 / s i) (List.replicate n 0) lb ub = .ok gp) :
    ∃ p, Params.makeSigmas bounded scaled x0 (List.ofFn s) lambda lb ub seed clock = .ok p ∧ p.gp = gp := by
  rcases hm : (List.ofFn s).min? with _ | m
  · rw [List.min?_eq_none_iff] at hm
    simp at hm
    omega
  obtain ⟨p, hp, _⟩ := C11_weights hn x0 m lambda seed clock gp
  have hp2 := hp
  refine ⟨p, ?_, ?_⟩
  · unfold Params.makeSigmas
    unfold Params.make at hp
    obtain ⟨l, hl, hp⟩ := Out.bind_eq_ok.1 hp
    rw [hl, Out.ok_bind, if_neg (by simp), inverses_ok hs, Out.ok_bind, hgp, Out.ok_bind, hm]
    exact hp
  · unfold Params.make at hp2
    obtain ⟨l, -, hp2⟩ := Out.bind_eq_ok.1 hp2
    exact (initializeParameters_spec hp2).gp


open MeasureTheory ProbabilityTheory Matrix

variable {Ω : Type*} [MeasurableSpace Ω] {P : Measure Ω}

theorem free_of_nil {p : Params n} (h : p.fixedP = []) (i : Fin n) : Free p i := by
  intro q hq
  rw [h] at hq
  simp at hq

theorem toF_noBounds (hn : 1 ≤ n) (x : Vec n) (y : List ℝ) : Pwq.empty.toF (List.ofFn x) ≠ .ok y := by
  intro h
  unfold Pwq.toF at h
  rw [Out.mapM_eq_ok, List.forall₂_iff_get] at h
  obtain ⟨hl, h⟩ := h
  have h1 : 0 < (List.ofFn x).zipIdx.length := by simp; omega
  have h2 := h 0 h1 (hl ▸ h1)
  simp only [List.get_eq_getElem, List.getElem_zipIdx] at h2
  obtain ⟨c, hc, -⟩ := Out.bind_eq_ok.1 h2
  simp [Pwq.coord, Pwq.empty] at hc
  cases hc

/-- A transform left without bounds cannot be applied. -/
theorem pheno_noBounds (hn : 1 ≤ n) {sc : ScaleS} (x y : Vec n) : phenoV ⟨.pwq Pwq.empty, none, sc⟩ x ≠ .ok y := by
  intro h
  obtain ⟨z, hz, -⟩ := Out.bind_eq_ok.1 h
  rcases sc with _ | s
  · exact toF_noBounds hn x z hz
  · obtain ⟨w, hw, -⟩ := Out.bind_eq_ok.1 hz
    exact toF_noBounds hn x w hw

/-- The first candidates of a search with the parameters given by the constructor. -/
theorem first_candidates {x0 : Vec n} {m : ℝ} {lambda : ℤ} {seed clock : ℕ} {gp : GenoPheno} {p : Params n}
    (hp : Params.make x0 m lambda seed clock gp = .ok p) (hm : 0 < m) (hx : x0 ≠ fun _ => -dblMax)
    {kind : CovKind} {env0 : Env n} {s0 : Strat n} (h0 : Strat.new env0 kind p = .ok s0) (eig : EigSolver n) :
    scaleToInternalV gp x0 = .ok s0.sol.xmean ∧ ∃ A : Mat n, A * Aᵀ = 1 ∧ ∀ env pop s1, env.eig = eig →
      s0.ask env = .ok (pop, s1) → s1.p.gp = gp ∧ pop.length = p.lambda ∧ ∀ j < p.lambda, ∃ x, pop[j]? = some x ∧
        ∀ i, x i = s0.sol.xmean i + m * A.mulVec (env.z (s0.nz + j)) i := by
  obtain ⟨hsep, hvd⟩ := Params.make_flags hp
  obtain ⟨_, hg, ht, _, _, _, _, _, _, hgp, hfx, hx1, hx2, hsig⟩ := Params.make_plain hp
  obtain ⟨hn, _, _, hp0, _, hf, hn0, _, _, _, _, _, _, _, _, _, _, _, hmean, _⟩ := Strat.new_ok h0
  have hmean' : scaleToInternalV gp x0 = .ok s0.sol.xmean := by
    unfold initialMean at hmean
    rw [hx1, hx2, if_pos rfl, if_neg hx, hfx] at hmean
    rw [← hgp]
    exact hmean
  have hs : s0.sol.sigma = m := by
    rw [new_sigma h0, hsig, if_pos hm]
  obtain ⟨A, hA, hask⟩ := C19_full eig (1 : Mat n) PD_one.psd
  refine ⟨hmean', A, hA, fun env pop s1 he ha => ⟨?_, ?_, fun j hj => ?_⟩⟩
  · obtain ⟨⟨_, _, _, _, _, _, _, _, _, e⟩, _⟩ := Strat.ask_frame ha
    rw [e]
    show s0.p.gp = gp
    rw [hp0]
    exact hgp
  · have := C19_fixed env s0 s1 pop (by rw [hp0]; show (p.fixedP.map _).Nodup; rw [hfx]; simp) ha
    rw [hp0] at this
    exact this.1
  · obtain ⟨x, h1, h2⟩ := hask env s0 s1 pop he hf.cov (by rw [hp0]; exact hsep) (by rw [hp0]; exact hvd) (by rw [hp0]; exact hg)
      (Or.inr hn0) (Or.inr hn0) ha j (by rw [hp0]; exact hj)
    refine ⟨x, h1, fun i => ?_⟩
    rw [h2 i (free_of_nil (by rw [hp0]; exact hfx) i), hs]

end Libcmaes
