import Verif.Lemmas.Fixed
import Verif.Spec.Init

namespace Libcmaes

variable {n : ℕ}

open Spec

theorem scaleToInternalV_eq_ok {g : GenoPheno} {m x : Vec n} :
    scaleToInternalV g m = .ok x ↔ InternalUnits g m x := by
  unfold scaleToInternalV InternalUnits
  cases g.scale with
  | noScaling => simp [eq_comm]
  | lin s =>
    simp only
    by_cases hid : s.id = true
    · simp [hid, eq_comm]
    · rw [if_neg hid, if_neg hid]
      by_cases h1 : s.scaling.length = n
      · by_cases h2 : s.shift.length = n
        · rw [LinScaling.toInternal_eq (by simp [h1]) (by simp [h2]), Out.ok_bind, toVec_eq_ok]
          simp only [h1, h2, true_and]
          constructor
          · intro h i
            have h3 := congrArg (fun l => l[i.val]?) h
            simp only [List.getElem?_zipWith, List.getElem?_ofFn] at h3
            have h4 : i.val < s.scaling.length := by omega
            have h5 : i.val < s.shift.length := by omega
            rw [List.getElem?_eq_getElem h4, List.getElem?_eq_getElem h5] at h3
            simp at h3
            simp [List.getD, List.getElem?_eq_getElem h4, List.getElem?_eq_getElem h5, h3]
          · intro h
            apply List.ext_getElem
            · simp [h1, h2]
            · intro i hi hi'
              simp only [List.length_ofFn] at hi'
              have h4 : i < s.scaling.length := by omega
              have h5 : i < s.shift.length := by omega
              have := h ⟨i, hi'⟩
              simp [List.getD, List.getElem?_eq_getElem h4, List.getElem?_eq_getElem h5] at this
              simp [this]
        · simp only [h2, false_and, and_false, iff_false]
          intro h
          obtain ⟨y, hy, _⟩ := Out.bind_eq_ok.1 h
          unfold LinScaling.toInternal cwise at hy
          rw [if_pos (by simp [h1]), mapM_ok, Out.ok_bind, if_neg (by simp [h1]; omega)] at hy
          cases hy
      · simp only [h1, false_and, iff_false]
        intro h
        obtain ⟨y, hy, _⟩ := Out.bind_eq_ok.1 h
        unfold LinScaling.toInternal at hy
        unfold cwise at hy
        rw [if_neg (by simp; omega)] at hy
        cases hy

theorem allowedStart_of_initialMean {p : Params n} {rnd : Vec n}
    (hrnd : ∀ k, -1 ≤ rnd k ∧ rnd k ≤ 1) (hk : (p.fixedP.map Prod.fst).Nodup) {x : Vec n}
    (h : initialMean p rnd = .ok x) : ∃ m, AllowedStart p m ∧ InternalUnits p.gp m x := by
  unfold initialMean at h
  obtain ⟨m, hm, hx⟩ := Out.bind_eq_ok.1 h
  refine ⟨m, ⟨fun i v hi => setFixed_of_mem hm hk i v hi, ?_, ?_, ?_⟩, scaleToInternalV_eq_ok.1 hx⟩
  · intro i hi h1 h2
    rw [setFixed_of_not_mem hm i hi, if_pos h1, if_neg h2]
  · intro i hi h1 h2
    rw [setFixed_of_not_mem hm i hi, if_neg h1]
    have h3 := hrnd i
    constructor <;> nlinarith
  · intro i hi h1 h2
    rw [setFixed_of_not_mem hm i hi, if_pos h1, if_pos h2]
    have h3 := hrnd i
    constructor <;> linarith

theorem Sol.make_eq_ok {p p' : Params n} {rnd z0 : Vec n} {s : Sol n}
    (h : Sol.make p rnd z0 = .ok (p', s)) :
    initialMean p rnd = .ok s.xmean ∧ p.lambda ≠ 0 ∧ n ≠ 0 ∧ Fresh p.lambda s ∧
      s.sigma = (if p.sigmaInit > 0 then p.sigmaInit else 1 / (n : ℝ)) ∧
      p' = { p with sigmaInit := s.sigma } ∧ s.maxHist = maxHistOf p.maxHist n p.lambda ∧
      s.kcand = kcandOf p.lambda ∧ s.initialCand = none ∧ s.hasCov = (!p.sep && !p.vd) ∧
      s.hasSep = !(!p.sep && !p.vd) ∧ s.hasV = p.vd ∧ s.pathsOk = true ∧ s.tpaS = 0 ∧
      s.bestSeenIter = none := by
  unfold Sol.make at h
  obtain ⟨m, hm, h⟩ := Out.bind_eq_ok.1 h
  by_cases h0 : p.lambda = 0 ∨ n = 0
  · rw [if_pos h0] at h; cases h
  · rw [if_neg h0] at h
    push Not at h0
    injection h with h
    injection h with h1 h2
    subst h2
    subst h1
    refine ⟨hm, h0.1, h0.2, ⟨rfl, fun _ => rfl, rfl, rfl, by simp, rfl, rfl, rfl, rfl, rfl, rfl, rfl, rfl, rfl⟩,
      rfl, rfl, rfl, rfl, rfl, rfl, rfl, rfl, rfl, rfl, rfl⟩

theorem Strat.new_ok {env : Env n} {kind : CovKind} {p : Params n} {s : Strat n}
    (h : Strat.new env kind p = .ok s) :
    n ≠ 0 ∧ p.lambda ≠ 0 ∧ s.kind = kind ∧ s.p = { p with sigmaInit := s.sol.sigma } ∧ 0 < s.sol.sigma ∧
      Fresh p.lambda s.sol ∧ s.niter = 0 ∧ s.nevals = 0 ∧ s.calls = [] ∧ s.negate = p.maximize ∧
      s.sol.hasCov = (!p.sep && !p.vd) ∧ s.sol.hasSep = !(!p.sep && !p.vd) ∧ s.sol.hasV = p.vd ∧
      s.sol.pathsOk = true ∧ s.sol.maxHist = maxHistOf p.maxHist n p.lambda ∧
      s.sol.kcand = kcandOf p.lambda ∧ s.sol.initialCand = none ∧ s.sol.tpaS = 0 ∧
      initialMean p (env.rnd 0) = .ok s.sol.xmean ∧ s.initialElitist = false := by
  unfold Strat.new at h
  obtain ⟨⟨p', sol⟩, hm, h⟩ := Out.bind_eq_ok.1 h
  injection h with h
  subst h
  obtain ⟨h1, h2, h3, h4, h5, h6, h7, h8, h9, h10, h11, h12, h13, h14, h15⟩ := Sol.make_eq_ok hm
  have hn : (0 : ℝ) < n := by exact_mod_cast Nat.pos_of_ne_zero h3
  refine ⟨h3, h2, rfl, h6, ?_, h4, rfl, rfl, rfl, rfl, h10, h11, h12, h13, h7, h8, h9, h14, h1, rfl⟩
  show 0 < sol.sigma
  rw [h5]
  split_ifs with h
  · exact h
  · positivity

end Libcmaes
