import Verif.Lemmas.ErrStatsOpt

/-!
# Lemmas for the ends of an interval
-/

namespace Libcmaes

theorem getElem?_addElement {α : Type} {v : List α} {k : ℕ} (h : k ≤ v.length) (a : α) (i : ℕ) :
    (addElement v k a)[i]? = if i < k then v[i]? else if i = k then some a else v[i - 1]? := by
  unfold addElement
  rw [if_neg (by omega)]
  split_ifs with h1 h2
  · rw [List.getElem?_append_left (by simp; omega), List.getElem?_take_of_lt h1]
  · subst h2
    rw [List.getElem?_append_right (by simp)]
    simp [min_eq_left h]
  · rw [List.getElem?_append_right (by simp; omega)]
    simp only [List.length_take, min_eq_left h]
    obtain ⟨j, rfl⟩ : ∃ j, i = k + 1 + j := ⟨i - (k + 1), by omega⟩
    rw [show k + 1 + j - k = j + 1 by omega, List.getElem?_cons_succ, List.getElem?_drop]
    congr 1
    omega

theorem getElem?_removeElement {α : Type} (v : List α) (k i : ℕ) (h : k < v.length) :
    (removeElement v k)[i]? = if i < k then v[i]? else v[i + 1]? := by
  unfold removeElement
  rw [if_neg (by omega)]
  split_ifs with h1
  · rw [List.getElem?_append_left (by simp; omega), List.getElem?_take_of_lt h1]
  · rw [List.getElem?_append_right (by simp; omega), List.getElem?_drop]
    simp only [List.length_take, min_eq_left (le_of_lt h)]
    congr 1
    omega

namespace ErrStats

variable {n : ℕ}

/-- The transformation acts on parameter `k` and on the others separately. -/
structure Splits (gp : GenoPheno) (n : ℕ) (k : ℕ) : Prop where
  length : ∀ x y : List ℝ, x.length = n → gp.pheno x = .ok y → y.length = n
  add : ∀ (z y w : List ℝ) (v : ℝ), z.length + 1 = n → (gp.removeDimensions [k]).pheno z = .ok y →
    gp.pheno ((List.replicate n 0).set k v) = .ok w →
    ∃ a, w[k]? = some a ∧ gp.pheno (addElement z k v) = .ok (addElement y k a)

theorem splits_plain {k : ℕ} (hk : k < n) : Splits GenoPheno.plain n k := by
  refine ⟨fun x y hx h => ?_, fun z y w v hz hy hw => ?_⟩
  · obtain rfl := Except.ok.inj h
    exact hx
  · obtain rfl : z = y := Except.ok.inj hy
    obtain rfl := Except.ok.inj hw
    exact ⟨v, List.getElem?_set_self (by simpa using hk), rfl⟩

theorem splits_ofBounds {lb ub : List ℝ} (hl : lb.length = n) (hu : ub.length = n) {k : ℕ} (hk : k < n) :
    Splits (GenoPheno.ofBounds none lb ub) n k := by
  refine ⟨fun x y hx h => ?_, fun z y w v hz hy hw => ?_⟩
  · have h' : (Pwq.ofBounds5 lb ub lb ub).toF x = .ok y := h
    rw [Pwq.toF_eq_ok_iff (by omega) (by omega)] at h'
    omega
  · have hy' : ((Pwq.ofBounds5 lb ub lb ub).removeDimensions [k]).toF z = .ok y := hy
    have hw' : (Pwq.ofBounds5 lb ub lb ub).toF ((List.replicate n 0).set k v) = .ok w := hw
    rw [Pwq.removeDimensions_ofBounds5 [k] (by simp) (by omega)] at hy'
    have hs : ∀ l : List ℝ, survivors [k] l = removeElement l k := fun l =>
      (removeElements_eq_survivors l [k] (by simp)).symm
    rw [hs, hs] at hy'
    have hrl : (removeElement lb k).length = z.length := by rw [removeElement_length (by omega)]; omega
    have hru : (removeElement ub k).length = z.length := by rw [removeElement_length (by omega)]; omega
    rw [Pwq.toF_eq_ok_iff hrl hru] at hy'
    rw [Pwq.toF_eq_ok_iff (by simpa using hl) (by simpa using hu)] at hw'
    obtain ⟨hyl, hy'⟩ := hy'
    obtain ⟨hwl, hw'⟩ := hw'
    simp only [List.length_set, List.length_replicate] at hwl
    have ha : w[k]? = some w[k] := List.getElem?_eq_getElem (by omega)
    refine ⟨w[k], ha, ?_⟩
    show (Pwq.ofBounds5 lb ub lb ub).toF (addElement z k v) = _
    have hzl : (addElement z k v).length = n := by rw [addElement_length (by omega)]; omega
    rw [Pwq.toF_eq_ok_iff (by omega) (by omega)]
    refine ⟨by rw [hzl, addElement_length (by omega)]; omega, ?_⟩
    intro i l u a b h1 h2 h3 h4
    rw [getElem?_addElement (by omega)] at h3 h4
    by_cases hik : i < k
    · rw [if_pos hik] at h3 h4
      exact hy' i l u a b (by rw [getElem?_removeElement _ _ _ (by omega), if_pos hik]; exact h1)
        (by rw [getElem?_removeElement _ _ _ (by omega), if_pos hik]; exact h2) h3 h4
    · rw [if_neg hik] at h3 h4
      by_cases he : i = k
      · subst he
        rw [if_pos rfl] at h3 h4
        obtain rfl := Option.some.inj h3
        obtain rfl := Option.some.inj h4
        exact hw' i l u v _ h1 h2 (List.getElem?_set_self (by simpa using hk)) ha
      · rw [if_neg he] at h3 h4
        have e : i - 1 + 1 = i := by omega
        exact hy' (i - 1) l u a b
          (by rw [getElem?_removeElement _ _ _ (by omega), if_neg (by omega), e]; exact h1)
          (by rw [getElem?_removeElement _ _ _ (by omega), if_neg (by omega), e]; exact h2) h3 h4

/-- How one direction of a search without curve ends: nothing written after `maxiters` rounds, the optimum, or a point
near the target.  `J` holds of the points the rounds start from, `Q` of the values and points found. -/
theorem searchLoop_ends {q : Profile n} {inner : Inner} {lfuel : ℕ} {neg : Bool} (hcu : q.curve = false)
    {J : Vec n → Prop} {Q : FVal → Vec n → Prop}
    (hstep : ∀ linit d x d1 x1 ev no r x2, J x → takeLinearStep q.toLine lfuel 10 linit d x = .ok (some (d1, x1, ev)) →
      optimizeVpk q.f inner no q.gp q.sol.cands [(q.k.val, x1 q.k)] (List.ofFn x1) false false = .ok r →
      ¬ (r.status < 0 ∨ FVal.lt r.best.1 q.minf.tenth) → r.best.2 = List.ofFn x2 → J x2 ∧ Q r.best.1 x2) (fuel : ℕ) :
    ∀ {i no : ℕ} {linit : Bool} {d : ℝ} {x : Vec n} {le le' : Pli n} {no' : ℕ}, J x →
    searchLoop q inner lfuel neg fuel i linit d x le no = .ok (some (le', no')) →
    (le' = le ∧ (no' : ℤ) + i = no + q.maxiters ∧ ∃ no1 x1 r x2, no' = no1 + 1 ∧
      optimizeVpk q.f inner no1 q.gp q.sol.cands [(q.k.val, x1 q.k)] (List.ofFn x1) false false = .ok r ∧
      ¬ FVal.le ((FVal.sub (FVal.sub r.best.1 q.minf) (FVal.ofReal q.fup)).abs) (FVal.ofReal (0.1 * q.fup)) ∧
      Q r.best.1 x2) ∨
    (∃ v c st, le.fvaluem[le.samplesize]? = some v ∧ le.xm[le.samplesize]? = some c ∧ le.pad neg v c st = .ok le' ∧
      ∃ no x1 r, optimizeVpk q.f inner no q.gp q.sol.cands [(q.k.val, x1 q.k)] (List.ofFn x1) false false = .ok r ∧
        (r.status < 0 ∨ FVal.lt r.best.1 q.minf.tenth)) ∨
    (∃ v x2 y st, phenoV q.gp x2 = .ok y ∧ Q v x2 ∧
      FVal.le ((FVal.sub (FVal.sub v q.minf) (FVal.ofReal q.fup)).abs) (FVal.ofReal (0.1 * q.fup)) ∧
      le.pad neg v y st = .ok le') := by
  induction fuel with
  | zero => intro i no linit d x le le' no' _ h; exact nomatch Except.ok.inj h
  | succ fuel ih =>
    intro i no linit d x le le' no' hJ h
    rcases searchLoop_succ h with ⟨_, h⟩ | ⟨d1, x1, ev, r, ht, hopt, h⟩
    · exact nomatch h
    rcases h with ⟨hbad, v, c, le1, hv, hc, h1, h2⟩ | ⟨hgood, x2, bx, le1, hx2, hbx, h1, h2⟩
    · obtain ⟨rfl, _⟩ := Prod.mk.inj (Option.some.inj h2)
      exact Or.inr (Or.inl ⟨v, c, _, hv, hc, h1, no, x1, r, hopt, hbad⟩)
    · rw [hcu] at h1
      obtain rfl : le = le1 := Except.ok.inj h1
      obtain ⟨hJ2, hQ⟩ := hstep linit d x d1 x1 ev no r x2 hJ ht hopt hgood hx2
      rcases h2 with ⟨_, hcl, le2, h3, h4⟩ | ⟨hncl, ⟨h3, h4⟩ | ⟨_, h4⟩⟩
      · obtain ⟨rfl, _⟩ := Prod.mk.inj (Option.some.inj h4)
        exact Or.inr (Or.inr ⟨_, x2, bx, _, hbx, hQ, hcl, h3⟩)
      · obtain ⟨rfl, rfl⟩ := Prod.mk.inj (Option.some.inj h4)
        rcases h3 with ⟨h3, _⟩ | h3
        · rw [hcu] at h3
          exact nomatch h3
        · exact Or.inl ⟨rfl, by push_cast; omega, no, x1, r, x2, rfl, hopt, fun hcl => hncl ⟨hcu, hcl⟩, hQ⟩
      · rcases ih hJ2 h4 with ⟨h5, h6, h7⟩ | h5
        · exact Or.inl ⟨h5, by push_cast at h6; omega, h7⟩
        · exact Or.inr h5

/-- What an inner optimisation reports is the value of the objective at the point that is kept. -/
theorem optimizeVpk_value {f : List ℝ → FVal} {inner : Inner} {no : ℕ} {gp : GenoPheno} {cands : List (Cand n)}
    {k : Fin n} {v : ℝ} {x x2 y : Vec n} {r : VpkRes} (hh : Inner.Honest inner) (hs : Splits gp n k)
    (hc : n = 1 → ∀ c, cands[0]? = some c → ∀ y, phenoV gp c.x = .ok y → f (List.ofFn y) = c.fvalue)
    (h : optimizeVpk f inner no gp cands [(k.val, v)] (List.ofFn x) false false = .ok r)
    (hx2 : r.best.2 = List.ofFn x2) (hy : phenoV gp x2 = .ok y) : f (List.ofFn y) = r.best.1 := by
  obtain ⟨rx, c, w, h1, h2, h3, h4⟩ := optimizeVpk_cases h
  rcases h4 with ⟨he, hb, _⟩ | ⟨_, ir, hir, hl, hb, _⟩
  · rw [hb] at hx2 ⊢
    have : c.x = x2 := List.ofFn_injective hx2
    subst this
    have hl := congrArg List.length he
    have hk := k.2
    have hrl := hs.length _ _ (by simp) h1
    rw [removeElement_length (by omega), hrl] at hl
    simp only [List.length_nil] at hl
    exact hc (by omega) c h2 y hy
  · rw [hb] at hx2 ⊢
    obtain ⟨y', hy', hv⟩ := hh _ _ _ _ _ _ hir
    have hrl := hs.length _ _ (by simp) h1
    have hk := k.2
    rw [removeElement_length (by omega)] at hl
    obtain ⟨a, ha, hadd⟩ := hs.add ir.x y' w v (by omega) hy' h3
    unfold phenoV at hy
    rw [Out.bind_eq_ok] at hy
    obtain ⟨l, hl1, hl2⟩ := hy
    simp only at hx2
    rw [← hx2, hadd] at hl1
    obtain rfl := Except.ok.inj hl1
    rw [← toVec_eq_ok hl2]
    simp only
    rw [hv]
    unfold rfunc
    rw [insertAll_one ha]

/-- In dimension 2 or more, value and status are those of an inner optimisation. -/
theorem optimizeVpk_inner {f : List ℝ → FVal} {inner : Inner} {no : ℕ} {gp : GenoPheno} {cands : List (Cand n)}
    {k : Fin n} {v : ℝ} {x : Vec n} {r : VpkRes} (hs : Splits gp n k) (hn : n ≠ 1)
    (h : optimizeVpk f inner no gp cands [(k.val, v)] (List.ofFn x) false false = .ok r) :
    ∃ g x0 σ gp' ir, inner no g x0 σ gp' = .ok ir ∧ r.best.1 = ir.fvalue ∧ r.status = ir.status := by
  obtain ⟨rx, c, w, h1, h2, h3, h4⟩ := optimizeVpk_cases h
  have hrl := hs.length _ _ (by simp) h1
  have hk := k.2
  rcases h4 with ⟨he, _, _⟩ | ⟨_, ir, hir, hl, hb, hst⟩
  · have hl := congrArg List.length he
    rw [removeElement_length (by omega), hrl] at hl
    simp only [List.length_nil] at hl
    omega
  · exact ⟨_, _, _, _, ir, hir, by rw [hb], hst⟩

/-- The value of parameter `k` stays the one the optimisation was given. -/
theorem optimizeVpk_coord {f : List ℝ → FVal} {inner : Inner} {no : ℕ} {gp : GenoPheno} {cands : List (Cand n)}
    {k : Fin n} {v : ℝ} {x x2 : Vec n} {r : VpkRes} (hs : Splits gp n k) (hn : n ≠ 1)
    (h : optimizeVpk f inner no gp cands [(k.val, v)] (List.ofFn x) false false = .ok r)
    (hx2 : r.best.2 = List.ofFn x2) : x2 k = v := by
  obtain ⟨rx, c, w, h1, h2, h3, h4⟩ := optimizeVpk_cases h
  have hrl := hs.length _ _ (by simp) h1
  have hk := k.2
  have hl0 : (removeElement rx k).length = n - 1 := by rw [removeElement_length (by omega), hrl]
  rcases h4 with ⟨he, _, _⟩ | ⟨_, ir, hir, hl, hb, _⟩
  · rw [he] at hl0
    simp at hl0
    omega
  · rw [hb] at hx2
    have h5 := addElement_get (v := ir.x) (k := k) (by omega) v
    have hx3 : addElement ir.x k v = List.ofFn x2 := hx2
    rw [hx3] at h5
    simpa using h5

/-- In dimension 1 the candidate of the solution comes back. -/
theorem optimizeVpk_dim1 {f : List ℝ → FVal} {inner : Inner} {no : ℕ} {gp : GenoPheno} {cands : List (Cand 1)}
    {k : Fin 1} {v : ℝ} {x : Vec 1} {r : VpkRes} (hs : Splits gp 1 k)
    (h : optimizeVpk f inner no gp cands [(k.val, v)] (List.ofFn x) false false = .ok r) :
    ∃ c, cands[0]? = some c ∧ r.best = (c.fvalue, List.ofFn c.x) ∧ r.status = 0 := by
  obtain ⟨rx, c, w, h1, h2, h3, h4⟩ := optimizeVpk_cases h
  have hrl := hs.length _ _ (by simp) h1
  rcases h4 with ⟨he, hb, hst⟩ | ⟨hne, _⟩
  · exact ⟨c, h2, hb, hst⟩
  · exfalso
    apply hne
    apply List.length_eq_zero_iff.1
    have := k.2
    rw [removeElement_length (by omega)]
    omega

/-- A step along a line that is orthogonal to the axis of `k` does not change parameter `k`. -/
theorem loop_orthogonal {l : Line n} (hr : Rotates l) (hE : l.sol.leigenvectors l.k l.k = 0) {above linit : Bool}
    {x : Vec n} (fuel : ℕ) : ∀ {i : ℕ} {d : ℝ} {xt y : Vec n} {fdiff : FVal} {ev : ℕ} {r : ℝ × Vec n × ℕ},
    xt l.k = x l.k → l.loop above linit x fuel i d xt y fdiff ev = .ok (some r) → r.2.1 l.k = x l.k := by
  induction fuel with
  | zero =>
    intro i d xt y fdiff ev r hxt h
    rcases loop_cases h with ⟨_, h⟩ | ⟨_, ⟨_, h⟩ | ⟨f', _, _, hf, _⟩⟩
    · obtain rfl := Option.some.inj h
      exact hxt
    · exact nomatch h
    · omega
  | succ fuel ih =>
    intro i d xt y fdiff ev r hxt h
    rcases loop_cases h with ⟨_, h⟩ | ⟨_, ⟨_, h⟩ | ⟨f', dv, y', hf, hdv, _, h⟩⟩
    · obtain rfl := Option.some.inj h
      exact hxt
    · exact nomatch h
    · obtain rfl : f' = fuel := by omega
      rw [rotated_ok hr] at hdv
      obtain rfl := Except.ok.inj hdv
      exact ih (by simp [hE]) h

theorem takeLinearStep_orthogonal {l : Line n} (hr : Rotates l) (hE : l.sol.leigenvectors l.k l.k = 0) {fuel nmax : ℕ}
    {linit : Bool} {d : ℝ} {x : Vec n} {r : ℝ × Vec n × ℕ}
    (h : takeLinearStep l fuel nmax linit d x = .ok (some r)) : r.2.1 l.k = x l.k := by
  obtain ⟨y, fd, x1, o, _, _, h1, h2⟩ := takeLinearStep_eq h
  cases o with
  | none => exact nomatch h2
  | some o =>
    obtain rfl := Option.some.inj h2
    simp only [Function.update_self]
    rcases h1 with ⟨_, ⟨dv, hdv, rfl⟩, h1⟩ | ⟨_, rfl, h1⟩
    · rw [rotated_ok hr] at hdv
      obtain rfl := Except.ok.inj hdv
      have := loop_orthogonal hr hE fuel (by simp [hE]) h1
      rw [this]
      simp [hE]
    · exact loop_orthogonal hr hE fuel rfl h1

/-- With a zero step the first line search goes on for ever. -/
theorem loop_zero {l : Line n} (hg : l.gp = GenoPheno.plain) (hr : Rotates l) {x : Vec n} {a : ℝ}
    (hf : l.f (List.ofFn x) = FVal.ofReal a) (hm : l.minf = FVal.ofReal a) (h0 : 0 < l.fup - l.delta * l.fup)
    (hx : |x l.k| ≤ dblMax) (fuel : ℕ) : ∀ (i ev : ℕ), 0 < i →
    l.loop false true x fuel i 0 x x (FVal.ofReal 0) ev = .ok none := by
  have hgo : ∀ i, 0 < i → l.goesOn false (FVal.ofReal 0) i x = .ok true := by
    intro i hi
    unfold Line.goesOn
    rw [hg]
    rw [abs_le] at hx
    simp only [Bool.false_eq_true, if_false]
    show Except.ok (decide (_ ∧ 0 < i ∧ -dblMax ≤ x l.k ∧ x l.k ≤ dblMax)) = _
    rw [decide_eq_true ⟨FVal.lt_ofReal.2 h0, hi, hx.1, hx.2⟩]
  induction fuel with
  | zero =>
    intro i ev hi
    rw [loop_eq, hgo i hi]
    rfl
  | succ fuel ih =>
    intro i ev hi
    rw [loop_eq, hgo i hi, Out.ok_bind, if_pos rfl]
    simp only [Bool.false_eq_true, if_false, rotated_ok hr, Out.ok_bind, hg, phenoV_plain, zero_mul, mul_zero, if_true]
    have e : (x + fun _ => (0 : ℝ)) = x := by funext i; simp
    rw [e, hf, hm, FVal.sub_ofReal, FVal.abs_ofReal, sub_self, abs_zero]
    exact ih i (ev + 1) hi

theorem search_zero {q : Profile n} {inner : Inner} {le : Pli n} (hg : q.gp = GenoPheno.plain) (hr : Rotates q.toLine) {a : ℝ}
    (hf : q.f (List.ofFn q.sol.bestCandidate.x) = FVal.ofReal a) (hm : q.minf = FVal.ofReal a) (hup : 0 < q.fup)
    (hd0 : 0 ≤ q.delta) (hd1 : q.delta < 1) (hx : q.sol.bestCandidate.x q.k = 0) (fuel : ℕ) (neg : Bool) (no : ℕ) :
    search q inner fuel neg le no = .ok none := by
  unfold search
  simp only [hx, mul_zero, zero_mul]
  cases fuel with
  | zero => rfl
  | succ fuel =>
    unfold searchLoop
    have h1 : ¬ FVal.lt (FVal.ofReal (q.fup + q.delta * q.fup)) (FVal.ofReal 0) := by
      rw [FVal.lt_ofReal]
      have : 0 ≤ q.delta * q.fup := mul_nonneg hd0 hup.le
      linarith
    have h2 := loop_zero hg hr hf hm (by nlinarith) (by rw [hx, abs_zero]; linarith [dblMax_ge]) (fuel + 1) 10 1
      (by omega)
    have : takeLinearStep q.toLine (fuel + 1) 10 true 0 q.sol.bestCandidate.x = .ok none := by
      unfold takeLinearStep
      simp only [hg, phenoV_plain, Out.ok_bind]
      rw [hf, hm, FVal.sub_ofReal, FVal.abs_ofReal, sub_self, abs_zero, decide_eq_false h1]
      simp only [Bool.false_eq_true, if_false, Out.pure_eq, Out.ok_bind]
      rw [h2]
      rfl
    rw [this]
    rfl

/-- A value and a point at one end of an interval: nothing was written, the optimum, or a point found. -/
def EndPoint (q : Profile n) (inner : Inner) (Q : FVal → Vec n → Prop) (y : Vec n) (v : FVal) (e : Vec n) : Prop :=
  (v = FVal.ofReal 0 ∧ e = 0 ∧ ∃ (no : ℕ) (x1 : Vec n) (r : VpkRes) (x2 : Vec n), q.maxiters ≤ no + 1 ∧
    optimizeVpk q.f inner no q.gp q.sol.cands [(q.k.val, x1 q.k)] (List.ofFn x1) false false = .ok r ∧
    ¬ FVal.le ((FVal.sub (FVal.sub r.best.1 q.minf) (FVal.ofReal q.fup)).abs) (FVal.ofReal (0.1 * q.fup)) ∧
    Q r.best.1 x2) ∨
  (v = q.minf ∧ e = y ∧ ∃ no x1 r, optimizeVpk q.f inner no q.gp q.sol.cands [(q.k.val, x1 q.k)] (List.ofFn x1) false false =
    .ok r ∧ (r.status < 0 ∨ FVal.lt r.best.1 q.minf.tenth)) ∨
  (∃ x2, phenoV q.gp x2 = .ok e ∧ Q v x2 ∧
    FVal.le ((FVal.sub (FVal.sub v q.minf) (FVal.ofReal q.fup)).abs) (FVal.ofReal (0.1 * q.fup)))

/-- One direction, seen at one position of the side it fills. -/
theorem searchLoop_side {q : Profile n} {inner : Inner} {lfuel : ℕ} {neg : Bool} (hcu : q.curve = false)
    {J : Vec n → Prop} {Q : FVal → Vec n → Prop}
    (hstep : ∀ linit d x d1 x1 ev no r x2, J x → takeLinearStep q.toLine lfuel 10 linit d x = .ok (some (d1, x1, ev)) →
      optimizeVpk q.f inner no q.gp q.sol.cands [(q.k.val, x1 q.k)] (List.ofFn x1) false false = .ok r →
      ¬ (r.status < 0 ∨ FVal.lt r.best.1 q.minf.tenth) → r.best.2 = List.ofFn x2 → J x2 ∧ Q r.best.1 x2)
    {fuel no : ℕ} {linit : Bool} {d : ℝ} {x : Vec n} {le le' : Pli n}
    {no' : ℕ} {y : Vec n} (hJ : J x) (hs : le.Shaped) (hcf : le.fvaluem[le.samplesize]? = some q.minf)
    (hcx : le.xm[le.samplesize]? = some y)
    (h : searchLoop q inner lfuel neg fuel 0 linit d x le no = .ok (some (le', no')))
    (hblank : ∀ j, Pli.OnSide le.samplesize neg le.samplesize j →
      le.fvaluem[j]? = some (FVal.ofReal 0) ∧ le.xm[j]? = some 0) :
    (∀ j, ¬ Pli.OnSide le.samplesize neg le.samplesize j → le'.fvaluem[j]? = le.fvaluem[j]? ∧ le'.xm[j]? = le.xm[j]?) ∧
    ∃ v e, EndPoint q inner Q y v e ∧ ∀ j, Pli.OnSide le.samplesize neg le.samplesize j →
      le'.fvaluem[j]? = some v ∧ le'.xm[j]? = some e := by
  have hpad : ∀ {v : FVal} {e : Vec n} {st : ℤ}, le.pad neg v e st = .ok le' → EndPoint q inner Q y v e →
      (∀ j, ¬ Pli.OnSide le.samplesize neg le.samplesize j →
        le'.fvaluem[j]? = le.fvaluem[j]? ∧ le'.xm[j]? = le.xm[j]?) ∧
      ∃ v e, EndPoint q inner Q y v e ∧ ∀ j, Pli.OnSide le.samplesize neg le.samplesize j →
        le'.fvaluem[j]? = some v ∧ le'.xm[j]? = some e := by
    intro v e st hp he
    obtain ⟨p, hp', _, hget⟩ := Pli.pad_spec hs neg v e st
    rw [hp'] at hp
    obtain rfl := Except.ok.inj hp
    refine ⟨fun j hj => ?_, v, e, he, fun j hj => ?_⟩
    · have := hget j
      rwa [if_neg hj, if_neg hj] at this
    · have := hget j
      rwa [if_pos hj, if_pos hj] at this
  rcases searchLoop_ends hcu hstep fuel hJ h with ⟨rfl, hno, no1, x1, r, x2, rfl, hw⟩ | ⟨v, c, st, hv, hc, hp, hbad⟩ | ⟨v, x2, e, st, he, hQ, hcl, hp⟩
  · exact ⟨fun j _ => ⟨rfl, rfl⟩, FVal.ofReal 0, 0, Or.inl ⟨rfl, rfl, no1, x1, r, x2, by push_cast at hno; omega, hw⟩, hblank⟩
  · rw [hcf] at hv
    rw [hcx] at hc
    obtain rfl := Option.some.inj hv
    obtain rfl := Option.some.inj hc
    exact hpad hp (Or.inr (Or.inl ⟨rfl, rfl, hbad⟩))
  · exact hpad hp (Or.inr (Or.inr ⟨x2, he, hQ, hcl⟩))

/-- Where the two ends of an interval come from. -/
theorem profile_ends {f : List ℝ → FVal} {inner : Inner} {fuel : ℕ} {p : Params n} {sol : Sol n} {pls pls' : Pls n}
    {k : Fin n} {s : ℕ} {fup delta : ℝ} {maxiters : ℤ} {le : Pli n}
    (h : profileLikelihood f inner fuel p sol pls k false s fup delta maxiters = .ok (some (le, pls')))
    {J : Vec n → Prop} {Q : FVal → Vec n → Prop} (hJ : J sol.bestCandidate.x)
    (hstep : ∀ linit d x d1 x1 ev no r x2, J x →
      takeLinearStep (profileOf f p sol k false s fup delta maxiters).toLine fuel 10 linit d x = .ok (some (d1, x1, ev)) →
      optimizeVpk f inner no p.gp sol.cands [(k.val, x1 k)] (List.ofFn x1) false false = .ok r →
      ¬ (r.status < 0 ∨ FVal.lt r.best.1 sol.bestCandidate.fvalue.tenth) → r.best.2 = List.ofFn x2 → J x2 ∧ Q r.best.1 x2) :
    ∃ y lo hi vlo vhi, phenoV p.gp sol.bestCandidate.x = .ok y ∧
      EndPoint (profileOf f p sol k false s fup delta maxiters) inner Q y vlo lo ∧
      EndPoint (profileOf f p sol k false s fup delta maxiters) inner Q y vhi hi ∧
      le.min = min (lo k) (hi k) ∧ le.max = max (lo k) (hi k) ∧ le.errmin = le.min - y k ∧ le.errmax = le.max - y k := by
  obtain ⟨y, le1, le2, no1, no2, hy, h1, h2, h3, _⟩ := profileLikelihood_eq h
  have sh0 := Pli.make_shaped k.val s y sol.bestCandidate.fvalue fup delta
  have hl1 := searchLoop_like fuel sh0 h1
  have sh1 := hl1.shaped sh0
  have hl2 := searchLoop_like fuel sh1 h2
  have sh2 := hl2.shaped sh1
  have e1 : le1.samplesize = s := hl1.s
  have e2 : le2.samplesize = s := hl2.s.trans e1
  have c0f : (Pli.make k.val s y sol.bestCandidate.fvalue fup delta).fvaluem[s]? = some sol.bestCandidate.fvalue :=
    List.getElem?_set_self (by simp; omega)
  have c0x : (Pli.make k.val s y sol.bestCandidate.fvalue fup delta).xm[s]? = some y :=
    List.getElem?_set_self (by simp; omega)
  have blank : ∀ j, j ≠ s → j < 2 * s + 1 →
      (Pli.make k.val s y sol.bestCandidate.fvalue fup delta).fvaluem[j]? = some (FVal.ofReal 0) ∧
      (Pli.make k.val s y sol.bestCandidate.fvalue fup delta).xm[j]? = some 0 := by
    intro j hj hlt
    constructor
    · show ((List.replicate (2 * s + 1) (FVal.ofReal 0)).set s _)[j]? = _
      rw [List.getElem?_set_ne (Ne.symm hj), List.getElem?_replicate, if_pos hlt]
    · show ((List.replicate (2 * s + 1) (0 : Vec n)).set s _)[j]? = _
      rw [List.getElem?_set_ne (Ne.symm hj), List.getElem?_replicate, if_pos hlt]
  obtain ⟨rest1, vhi, hi, hhi, hon1⟩ := searchLoop_side (q := profileOf f p sol k false s fup delta maxiters) rfl hstep hJ
    sh0 c0f c0x h1 (fun j hj => by
      have hj' : Pli.OnSide s false s j := hj
      simp only [Pli.OnSide, Bool.false_eq_true, if_false] at hj'
      exact blank j (by omega) (by omega))
  have c1f : le1.fvaluem[le1.samplesize]? = some sol.bestCandidate.fvalue := by rw [e1]; exact hl1.cf.trans c0f
  have c1x : le1.xm[le1.samplesize]? = some y := by rw [e1]; exact hl1.cx.trans c0x
  obtain ⟨rest2, vlo, lo, hlo, hon2⟩ := searchLoop_side (q := profileOf f p sol k false s fup delta maxiters) rfl hstep hJ
    sh1 c1f c1x h2 (fun j hj => by
      rw [e1] at hj
      simp only [Pli.OnSide, if_true] at hj
      have := rest1 j (by show ¬ Pli.OnSide s false s j; simp only [Pli.OnSide, Bool.false_eq_true, if_false]; omega)
      rw [this.1, this.2]
      exact blank j (by omega) (by omega))
  obtain ⟨hk, i, j, v, vi, vj, x, xi, xj, hi', hj', rfl, hv, hx, _, hxi, _, hxj, _, _⟩ := Pli.setErrMinMax_spec sh2 h3
  have hk2 : le2.k = k.val := hl2.k.trans hl1.k
  have exi : xi = lo := by
    have := (hon2 i (by rw [e1]; simp only [Pli.OnSide, if_true]; omega)).2
    rw [hxi] at this
    exact Option.some.inj this
  have exj : xj = hi := by
    have h5 := (hon1 (s + 1 + j) (by
      show Pli.OnSide s false s (s + 1 + j)
      simp only [Pli.OnSide, Bool.false_eq_true, if_false]; omega)).2
    have h6 := (rest2 (s + 1 + j) (by rw [e1]; simp only [Pli.OnSide, if_true]; omega)).2
    rw [e2] at hxj
    rw [h6, h5] at hxj
    exact (Option.some.inj hxj).symm
  have ex : x = y := by
    have h5 : le2.xm[s]? = some y := by
      have := hl2.cx
      rw [e1] at this
      exact this.trans (hl1.cx.trans c0x)
    rw [e2, h5] at hx
    exact (Option.some.inj hx).symm
  have ek : (⟨le2.k, hk⟩ : Fin n) = k := Fin.ext hk2
  refine ⟨y, lo, hi, vlo, vhi, hy, hlo, hhi, ?_⟩
  simp only [ek, exi, exj, ex, and_self]

end ErrStats

end Libcmaes
