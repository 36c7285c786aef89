import Verif.Lemmas.Print

/-! # Examples of printed intervals -/

namespace Libcmaes

open Spec

namespace Pli

variable {n : ℕ}

/-- The statuses after a side was filled. -/
theorem pad_err {p q : Pli n} (hp : p.Shaped) {neg : Bool} {v : FVal} {x : Vec n} {st : ℤ} (h : p.pad neg v x st = .ok q)
    (i : ℕ) : q.err[i]? = if OnSide p.samplesize neg p.samplesize i then some st else p.err[i]? := by
  suffices key : ∀ m ≤ p.samplesize, ∀ q, (List.range m).foldlM (fun p j => p.put neg j v x st) p = Except.ok q →
      Like q p ∧ ∀ i, q.err[i]? = if OnSide p.samplesize neg m i then some st else p.err[i]? from
    (key p.samplesize le_rfl q h).2 i
  intro m
  induction m with
  | zero =>
    intro _ q hq
    injection hq with hq
    subst hq
    refine ⟨Like.refl _, fun i => ?_⟩
    have : ¬ OnSide p.samplesize neg 0 i := by unfold OnSide; split_ifs <;> omega
    rw [if_neg this]
  | succ m ih =>
    intro hm r hr
    rw [List.range_succ, List.foldlM_append] at hr
    obtain ⟨q, hq, hr⟩ := Out.bind_eq_ok.1 hr
    obtain ⟨h2, h3⟩ := ih (by omega) q hq
    have hr' : q.put neg m v x st = .ok r := by
      obtain ⟨r', h4, h5⟩ := Out.bind_eq_ok.1 (show (q.put neg m v x st >>= fun r => (pure r : Out (Pli n))) = .ok r from hr)
      injection h5 with h5
      rw [← h5]
      exact h4
    refine ⟨h2.trans (put_like hr'), fun i => ?_⟩
    obtain ⟨hlt, rfl⟩ := put_eq hr'
    have e1 := (h2.shaped hp).err
    simp only
    rw [List.getElem?_set, h3, h2.s]
    have hs : slot p.samplesize neg m < 2 * p.samplesize + 1 := by unfold slot; split_ifs <;> omega
    rw [h2.s] at e1
    by_cases hi : slot p.samplesize neg m = i
    · have hon : OnSide p.samplesize neg (m + 1) i := by
        subst hi; unfold OnSide slot; split_ifs <;> omega
      simp only [if_pos hi, if_pos hon, e1, if_pos hs]
    · have hon : OnSide p.samplesize neg (m + 1) i ↔ OnSide p.samplesize neg m i := by
        unfold slot at hi
        unfold OnSide
        cases neg
        · simp only [Bool.false_eq_true, if_false] at hi ⊢
          omega
        · simp only [if_true] at hi ⊢
          omega
      rw [if_neg hi]
      simp only [hon]

end Pli

namespace ErrStats

/-- An objective of two parameters: `w` of the first plus the distance of the second to 1. -/
noncomputable def probe (w : ℝ → ℝ) (l : List ℝ) : FVal := FVal.ofReal (w (l.getD 0 0) + |l.getD 1 0 - 1|)

theorem probe_one (w : ℝ → ℝ) (a : ℝ) : probe w [a, 1] = FVal.ofReal (w a) := by
  unfold probe
  simp

/-- Inner optimisations that always answer (1,...,1), call number `no` with status `st no`. -/
noncomputable def reporting (st : ℕ → ℤ) : Inner := fun no g x0 _ gp => do
  let y ← gp.pheno (x0.map fun _ => 1)
  pure ⟨g y, x0.map fun _ => 1, 1, st no⟩

theorem reporting_fits (st : ℕ → ℤ) : Inner.Fits (reporting st) :=
  fun no f x0 _ => ⟨⟨f (x0.map fun _ => 1), x0.map fun _ => 1, 1, st no⟩, rfl, by simp⟩

/-- The point (a,1). -/
def beside (a : ℝ) : Vec 2 := fun i => if i = 0 then a else 1

theorem beside_list (a : ℝ) : List.ofFn (beside a) = [a, 1] := by
  rw [List.ofFn_succ, List.ofFn_succ, List.ofFn_zero]
  rfl

/-- An optimum at (e,1), of value 0. -/
noncomputable def optAt (e : ℝ) : Cand 2 := ⟨FVal.ofReal 0, beside e, 0⟩

theorem optAt_optimum {w : ℝ → ℝ} {e : ℝ} (he : w e = 0) :
    Optimum (probe w) (exParams 2) (exSol 1 (optAt e)) 0 := by
  refine ⟨rfl, rfl, rfl, rfl, by simp [exSol], rfl, ?_⟩
  show probe w (List.ofFn (beside e)) = _
  rw [beside_list, probe_one, he]

/-- Where the first step of a side ends. -/
noncomputable def tipOf (e : ℝ) (neg : Bool) : ℝ := e + (if neg then -1 else 1) * e * 0.1 * 2

/-- One side of the profile of the first parameter, for an objective that is near the minimum plus 0.1 after one step. -/
theorem search_probe {w : ℝ → ℝ} {e : ℝ} (he : w e = 0) (hd : |e| ≤ dblMax) (st : ℕ → ℤ) (fuel s : ℕ) (maxiters : ℤ)
    (neg : Bool) (h1 : 0.09 ≤ w (tipOf e neg)) (h2 : w (tipOf e neg) ≤ 0.11) (le : Pli 2) (no : ℕ) :
    search (profileOf (probe w) (exParams 2) (exSol 1 (optAt e)) 0 false s 0.1 0.1 maxiters) (reporting st) (fuel + 1) neg le no =
      if st no < 0 then (do
        let v ← idx le.fvaluem le.samplesize
        let c ← idx le.xm le.samplesize
        let le1 ← le.pad neg v c (st no)
        pure (some (le1, no + 1)))
      else (do
        let le2 ← le.pad neg (FVal.ofReal (w (tipOf e neg))) (beside (tipOf e neg)) (st no)
        pure (some (le2, no + 1))) := by
  have ho := optAt_optimum he
  have hx : e + (1 : Mat 2) 0 0 * ((if neg then (-1 : ℝ) else 1) * e * 0.1 * 2) = tipOf e neg := by
    unfold tipOf
    simp
  have ht := takeLinearStep_double
    (l := (profileOf (probe w) (exParams 2) (exSol 1 (optAt e)) 0 false s 0.1 0.1 maxiters).toLine)
    (x := beside e) (a := 0) (d := (if neg then -1 else 1) * e * 0.1) rfl (ho.rotates 0 false s 0.1 0.1 maxiters)
    ho.value rfl (by norm_num [profileOf]) (by norm_num [profileOf]) (by norm_num [profileOf])
    hd (by
      have : List.ofFn (beside e + fun i : Fin 2 => (1 : Mat 2) 0 i * ((if neg then (-1 : ℝ) else 1) * e * 0.1 * 2)) =
          [tipOf e neg, 1] := by
        rw [List.ofFn_succ, List.ofFn_succ, List.ofFn_zero]
        congr 1
        congr 1
        simp [beside]
      show ¬ FVal.lt (FVal.sub (probe w (List.ofFn (beside e + fun i : Fin 2 =>
        (1 : Mat 2) 0 i * ((if neg then (-1 : ℝ) else 1) * e * 0.1 * 2)))) (FVal.ofReal 0)).abs (FVal.ofReal (0.1 - 0.1 * 0.1))
      rw [this, probe_one, FVal.sub_ofReal, FVal.abs_ofReal, FVal.lt_ofReal, sub_zero, abs_of_nonneg (by linarith)]
      linarith) fuel
  have ht' : takeLinearStep (profileOf (probe w) (exParams 2) (exSol 1 (optAt e)) 0 false s 0.1 0.1 maxiters).toLine (fuel + 1) 10
      true ((if neg then -1 else 1) * e * 0.1) (beside e) =
      .ok (some ((if neg then -1 else 1) * e * 0.1 * 2, beside (tipOf e neg), 2)) := by
    rw [ht]
    congr 3
    congr 1
    funext i
    show Function.update (beside e) 0 (e + (1 : Mat 2) 0 0 * ((if neg then (-1 : ℝ) else 1) * e * 0.1 * 2)) i = _
    rw [hx, Function.update_apply]
    unfold beside
    split_ifs <;> rfl
  have hopt : optimizeVpk (probe w) (reporting st) no GenoPheno.plain [optAt e] [((0 : Fin 2).val, tipOf e neg)]
      (List.ofFn (beside (tipOf e neg))) false false =
      .ok ⟨(FVal.ofReal (w (tipOf e neg)), [tipOf e neg, 1]), (FVal.ofReal (w (tipOf e neg)), [tipOf e neg, 1]), 1, st no⟩ := by
    rw [optimizeVpk_one]
    have e3 : removeElement [tipOf e neg, 1] (0 : Fin 2).val = [1] := rfl
    simp only [beside_list, show ∀ l, GenoPheno.plain.pheno l = .ok l from fun _ => rfl, Out.ok_bind, e3]
    show (Except.ok (optAt e) >>= fun c => _) = _
    rw [Out.ok_bind, if_neg (by simp)]
    show (Except.ok ⟨(rfunc (probe w) [0] [tipOf e neg, 0] [1], [tipOf e neg, 1]),
      (rfunc (probe w) [0] [tipOf e neg, 0] [1], [tipOf e neg, 1]), 1, st no⟩ : Out VpkRes) = _
    have e2 : rfunc (probe w) [0] [tipOf e neg, 0] [1] = FVal.ofReal (w (tipOf e neg)) := by
      rw [← probe_one]
      rfl
    rw [e2]
  split_ifs with hst
  · unfold search searchLoop
    simp only
    show (takeLinearStep (profileOf (probe w) (exParams 2) (exSol 1 (optAt e)) 0 false s 0.1 0.1 maxiters).toLine (fuel + 1) 10
      true ((if neg then -1 else 1) * e * 0.1) (beside e) >>= _) = _
    rw [ht', Out.ok_bind]
    show (optimizeVpk (probe w) (reporting st) no GenoPheno.plain [optAt e] [((0 : Fin 2).val, tipOf e neg)]
      (List.ofFn (beside (tipOf e neg))) false false >>= _) = _
    rw [hopt, Out.ok_bind, if_pos (Or.inl hst)]
  · refine search_first (q := profileOf (probe w) (exParams 2) (exSol 1 (optAt e)) 0 false s 0.1 0.1 maxiters) rfl ht' hopt ?_
      (x2 := beside (tipOf e neg)) (beside_list _).symm (phenoV_plain _) ?_
    · rintro (h | h)
      · exact hst h
      · have h' : FVal.lt (FVal.ofReal (w (tipOf e neg))) (FVal.ofReal 0).tenth := h
        rw [FVal.tenth_ofReal, FVal.lt_ofReal] at h'
        norm_num at h'
        linarith
    · show FVal.le (FVal.sub (FVal.sub (FVal.ofReal (w (tipOf e neg))) (FVal.ofReal 0)) (FVal.ofReal 0.1)).abs (FVal.ofReal (0.1 * 0.1))
      rw [FVal.sub_ofReal, FVal.sub_ofReal, FVal.abs_ofReal, FVal.le_ofReal, abs_le]
      constructor <;> linarith

/-- The end of one side: the optimum when the inner optimisation failed. -/
noncomputable def endOf (e : ℝ) (bad : Prop) [Decidable bad] (neg : Bool) : ℝ := if bad then e else tipOf e neg

/-- What is printed for the first parameter. -/
theorem printed_probe {w : ℝ → ℝ} {e : ℝ} (he : w e = 0) (hd : |e| ≤ dblMax) (st : ℕ → ℤ) (fuel : ℕ) {s : ℕ} (hs : 0 < s)
    (maxiters : ℤ) (h1 : ∀ neg, 0.09 ≤ w (tipOf e neg)) (h2 : ∀ neg, w (tipOf e neg) ≤ 0.11) :
    ∃ le pls, profileLikelihood (probe w) (reporting st) (fuel + 1) (exParams 2) (exSol 1 (optAt e)) (fun _ => none) 0 false s
        0.1 0.1 maxiters = .ok (some (le, pls)) ∧ pls 0 = some le ∧ (∀ k, k ≠ 0 → pls k = none) ∧
      (∃ (i j : ℕ), le.minindex = i ∧ le.maxindex = j ∧ le.err[i]? = some (st 1) ∧
        le.err[le.samplesize + 1 + j]? = some (st 0)) ∧
      ∀ verb, printInterval verb 0 le = .ok
        ⟨0, min (endOf e (st 1 < 0) true) (endOf e (st 0 < 0) false), max (endOf e (st 1 < 0) true) (endOf e (st 0 < 0) false),
          min (endOf e (st 1 < 0) true) (endOf e (st 0 < 0) false) - e, max (endOf e (st 1 < 0) true) (endOf e (st 0 < 0) false) - e,
          if st 1 = 0 then none else some (st 1, st 1),
          (FVal.ofReal (w (endOf e (st 1 < 0) true)), FVal.ofReal (w (endOf e (st 0 < 0) false))),
          if verb then some (beside (endOf e (st 1 < 0) true), beside (endOf e (st 0 < 0) false)) else none⟩ := by
  have ho := optAt_optimum he
  have side : ∀ (neg : Bool) (le : Pli 2) (no : ℕ), le.samplesize = s → le.fvaluem[s]? = some (FVal.ofReal 0) →
      le.xm[s]? = some (beside e) →
      search (profileOf (probe w) (exParams 2) (exSol 1 (optAt e)) 0 false s 0.1 0.1 maxiters) (reporting st) (fuel + 1) neg le
        no = (do
        let le2 ← le.pad neg (FVal.ofReal (w (endOf e (st no < 0) neg))) (beside (endOf e (st no < 0) neg)) (st no)
        pure (some (le2, no + 1))) := by
    intro neg le no hle hf hx
    rw [search_probe he hd st fuel s maxiters neg (h1 neg) (h2 neg), hle, idx_eq_ok.2 hf, idx_eq_ok.2 hx]
    unfold endOf
    split_ifs
    · rw [Out.ok_bind, Out.ok_bind, he]
    · rfl
  obtain ⟨o, h⟩ := profile_ok ho (reporting_fits st) (fuel + 1) (fun _ => none) (0 : Fin 2) false hs 0.1 0.1 maxiters
  have sh0 := Pli.make_shaped (0 : Fin 2).val s (beside e) (FVal.ofReal 0) 0.1 0.1
  have c0 : (Pli.make (0 : Fin 2).val s (beside e) (FVal.ofReal 0) 0.1 0.1).fvaluem[s]? = some (FVal.ofReal 0) :=
    List.getElem?_set_self (by simp; omega)
  have c0' : (Pli.make (0 : Fin 2).val s (beside e) (FVal.ofReal 0) 0.1 0.1).xm[s]? = some (beside e) :=
    List.getElem?_set_self (by simp; omega)
  obtain ⟨le1, p1, l1, g1⟩ := Pli.pad_spec sh0 false (FVal.ofReal (w (endOf e (st 0 < 0) false)))
    (beside (endOf e (st 0 < 0) false)) (st 0)
  have r1 := Pli.pad_err sh0 p1
  have sh1 := l1.shaped sh0
  obtain ⟨le2, p2, l2, g2⟩ := Pli.pad_spec sh1 true (FVal.ofReal (w (endOf e (st 1 < 0) true)))
    (beside (endOf e (st 1 < 0) true)) (st 1)
  have r2 := Pli.pad_err sh1 p2
  have e1 : le1.samplesize = s := l1.s
  have e2 : le2.samplesize = s := l2.s.trans e1
  have hy : phenoV (exParams 2).gp (exSol 1 (optAt e)).bestCandidate.x = .ok (beside e) := phenoV_plain _
  have c1 : le1.fvaluem[s]? = some (FVal.ofReal 0) := l1.cf.trans c0
  have c1' : le1.xm[s]? = some (beside e) := l1.cx.trans c0'
  unfold profileLikelihood at h ⊢
  simp only [hy, Out.ok_bind] at h ⊢
  have S0 := side false (Pli.make (0 : Fin 2).val s (beside e) (FVal.ofReal 0) 0.1 0.1) 0 rfl c0 c0'
  rw [p1, Out.ok_bind] at S0
  have S1 := side true le1 1 e1 c1 c1'
  rw [p2, Out.ok_bind] at S1
  erw [S0] at h ⊢
  simp only [Out.ok_bind, Out.pure_eq, Nat.zero_add] at h ⊢
  rw [S1] at h ⊢
  simp only [Out.ok_bind, Out.pure_eq] at h ⊢
  rw [Out.bind_eq_ok] at h
  obtain ⟨le, hle, _⟩ := h
  rw [hle, Out.ok_bind]
  refine ⟨le, _, rfl, ?_⟩
  obtain ⟨hk, i, j, v, vi, vj, x, xi, xj, hi, hj, rfl, hv, hx, hvi, hxi, hvj, hxj, _, _⟩ :=
    Pli.setErrMinMax_spec (l2.shaped sh1) hle
  have ek : (⟨le2.k, hk⟩ : Fin 2) = 0 := Fin.ext (l2.k.trans l1.k)
  have L : ∀ i, i < s → Pli.OnSide le1.samplesize true le1.samplesize i := by
    intro i hi; rw [e1]; simp only [Pli.OnSide, if_true]; omega
  have NL : ∀ i, s ≤ i → ¬ Pli.OnSide le1.samplesize true le1.samplesize i := by
    intro i hi; rw [e1]; simp only [Pli.OnSide, if_true]; omega
  have R : ∀ i, s < i → i ≤ 2 * s → Pli.OnSide s false s i := by
    intro i h h'; simp only [Pli.OnSide, Bool.false_eq_true, if_false]; omega
  rw [e2] at hi hj hx hxj hvj
  have hei : le2.err[i]? = some (st 1) := by rw [r2, if_pos (L i hi)]
  have hej : le2.err[j]? = some (st 1) := by rw [r2, if_pos (L j hj)]
  have hej' : le2.err[s + 1 + j]? = some (st 0) := by
    rw [r2, if_neg (NL _ (by omega)), r1]
    exact if_pos (R _ (by omega) (by omega))
  rw [(g2 i).2, if_pos (L i hi)] at hxi
  rw [(g2 i).1, if_pos (L i hi)] at hvi
  rw [(g2 _).2, if_neg (NL _ (by omega)), (g1 _).2] at hxj
  erw [if_pos (R _ (by omega) (by omega))] at hxj
  rw [(g2 _).1, if_neg (NL _ (by omega)), (g1 _).1] at hvj
  erw [if_pos (R _ (by omega) (by omega))] at hvj
  rw [(g2 _).2, if_neg (NL _ le_rfl), c1'] at hx
  have hvi' := hvi
  obtain rfl := Option.some.inj hxi
  obtain rfl := Option.some.inj hxj
  obtain rfl := Option.some.inj hx
  obtain rfl := Option.some.inj hvi
  obtain rfl := Option.some.inj hvj
  refine ⟨by simp [insertPli], fun k hk => by simp [insertPli, hk], ⟨i, j, rfl, rfl, hei, by rw [e2]; exact hej'⟩, ?_⟩
  intro verb
  have q1 : le2.fvaluem[i]? = some (FVal.ofReal (w (endOf e (st 1 < 0) true))) := by rw [(g2 i).1, if_pos (L i hi)]
  have q2 : le2.xm[i]? = some (beside (endOf e (st 1 < 0) true)) := by rw [(g2 i).2, if_pos (L i hi)]
  have q3 : le2.fvaluem[s + 1 + j]? = some (FVal.ofReal (w (endOf e (st 0 < 0) false))) := by
    rw [(g2 _).1, if_neg (NL _ (by omega)), (g1 _).1]
    exact if_pos (R _ (by omega) (by omega))
  have q4 : le2.xm[s + 1 + j]? = some (beside (endOf e (st 0 < 0) false)) := by
    rw [(g2 _).2, if_neg (NL _ (by omega)), (g1 _).2]
    exact if_pos (R _ (by omega) (by omega))
  have ez : (le2.samplesize : ℤ) + 1 + (j : ℤ) = ((s + 1 + j : ℕ) : ℤ) := by rw [e2]; push_cast; ring
  unfold printInterval
  simp only
  rw [idxZ_eq rfl hei, Out.ok_bind, idxZ_eq rfl hej, Out.ok_bind, idxZ_eq rfl q1, Out.ok_bind, idxZ_eq ez q3, Out.ok_bind,
    idxZ_eq rfl q2, idxZ_eq ez q4]
  have hb : ∀ a, beside a (⟨le2.k, hk⟩ : Fin 2) = a := by intro a; rw [ek]; rfl
  simp only [hb]
  have hst : (if st 1 ≠ 0 ∨ st 1 ≠ 0 then some (st 1, st 1) else none) = if st 1 = 0 then none else some (st 1, st 1) := by
    by_cases h0 : st 1 = 0 <;> simp [h0]
  rw [hst]
  cases verb <;> rfl

/-- Printing a solution with one profile. -/
theorem print_one {sol : Sol 2} {pls : Pls 2} {le : Pli 2} {I : PrintedInterval 2} {verb : Bool} (hc : sol.cands ≠ [])
    (h2 : pls 0 = some le) (h3 : ∀ k, k ≠ 0 → pls k = none) (h : printInterval verb 0 le = .ok I) :
    ∃ q, sol.print pls verb GenoPheno.plain = .ok (some q) ∧ q.intervals = [I] := by
  unfold Sol.print
  have hl : ((List.range 2).filterMap fun k => (pls k).map fun q => (k, q)) = [(0, le)] := by
    simp [List.range_succ, h2, h3]
  rw [if_neg hc, phenoV_plain, Out.ok_bind, hl, List.mapM_cons]
  simp only [h, Out.ok_bind]
  exact ⟨_, rfl, rfl⟩

end ErrStats

end Libcmaes
