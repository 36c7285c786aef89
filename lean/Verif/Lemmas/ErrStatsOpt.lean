import Verif.Lemmas.ErrStats
import Verif.Spec.ErrStats

/-!
# Lemmas for the optimisation with one fixed parameter
-/

namespace Libcmaes

namespace ErrStats

variable {n : ℕ}

theorem point_one {m k : ℕ} (hk : k < m) (v : ℝ) : point m [(k, v)] = .ok ((List.replicate m 0).set k v) := by
  unfold point
  simp only [List.foldlM_cons, List.foldlM_nil, List.length_replicate, if_pos hk]
  rfl

theorem reduce_one (c : Cand n) (k : Fin n) (v : ℝ) (rx : List ℝ) :
    reduce c [(k.val, v)] rx = .ok (max 0 |c.x k - v|, removeElement rx k) := by
  unfold reduce
  have : coord c.x k.val = .ok (c.x k) := coord_eq_ok.2 ⟨k.2, rfl⟩
  simp only [List.reverse_singleton, List.foldlM_cons, List.foldlM_nil, this]
  rfl

theorem insertAll_one {w : List ℝ} {k : ℕ} {a : ℝ} (h : w[k]? = some a) (x : List ℝ) :
    insertAll [k] w x = .ok (addElement x k a) := by
  unfold insertAll
  simp only [List.foldlM_cons, List.foldlM_nil, idx_eq_ok.2 h]
  rfl

/-- `optimize_pk` as the search calls it. -/
theorem optimizeVpk_one (f : List ℝ → FVal) (inner : Inner) (no : ℕ) (gp : GenoPheno) (cands : List (Cand n))
    (k : Fin n) (v : ℝ) (x : Vec n) :
    optimizeVpk f inner no gp cands [(k.val, v)] (List.ofFn x) false false = (do
      let rx0 ← gp.pheno (List.ofFn x)
      let c ← at! cands 0
      let w ← gp.pheno ((List.replicate n 0).set k v)
      if removeElement rx0 k = [] then pure ⟨(c.fvalue, List.ofFn c.x), (f w, w), 1, 0⟩
      else do
        let r ← inner no (rfunc f [k.val] w) (removeElement rx0 k) (max 0 |c.x k - v|) (gp.removeDimensions [k.val])
        if r.x.length ≠ (removeElement rx0 k).length then .error .ub
        else pure ⟨(r.fvalue, addElement r.x k v), (r.fvalue, addElement r.x k v), r.nevals, r.status⟩) := by
  have hv : ((List.replicate n (0 : ℝ)).set k v)[k.val]? = some v := by
    rw [List.getElem?_set_self (by simp)]
  unfold optimizeVpk
  simp only [Bool.false_eq_true, if_false, List.length_ofFn, point_one k.2, Out.ok_bind, reduce_one, List.map_cons,
    List.map_nil, insertAll_one hv, Out.pure_eq]
  cases gp.pheno (List.ofFn x) with
  | error e => rfl
  | ok rx =>
    simp only [Out.ok_bind]
    cases hc : at! cands 0 with
    | error e => rfl
    | ok c =>
      simp only [Out.ok_bind]

theorem optimizeVpk_cases {f : List ℝ → FVal} {inner : Inner} {no : ℕ} {gp : GenoPheno} {cands : List (Cand n)}
    {k : Fin n} {v : ℝ} {x : Vec n} {r : VpkRes}
    (h : optimizeVpk f inner no gp cands [(k.val, v)] (List.ofFn x) false false = .ok r) :
    ∃ rx c w, gp.pheno (List.ofFn x) = .ok rx ∧ cands[0]? = some c ∧ gp.pheno ((List.replicate n 0).set k v) = .ok w ∧
      ((removeElement rx k = [] ∧ r.best = (c.fvalue, List.ofFn c.x) ∧ r.status = 0) ∨
        (removeElement rx k ≠ [] ∧ ∃ ir, inner no (rfunc f [k.val] w) (removeElement rx k) (max 0 |c.x k - v|)
            (gp.removeDimensions [k.val]) = .ok ir ∧ ir.x.length = (removeElement rx k).length ∧
          r.best = (ir.fvalue, addElement ir.x k v) ∧ r.status = ir.status)) := by
  rw [optimizeVpk_one] at h
  simp only [Out.bind_eq_ok] at h
  obtain ⟨rx, hrx, c, hc, w, hw, h⟩ := h
  refine ⟨rx, c, w, hrx, at!_eq_ok.1 hc, hw, ?_⟩
  by_cases h1 : removeElement rx k = []
  · rw [if_pos h1] at h
    obtain rfl := Except.ok.inj h
    exact Or.inl ⟨h1, rfl, rfl⟩
  · rw [if_neg h1, Out.bind_eq_ok] at h
    obtain ⟨ir, hir, h⟩ := h
    by_cases h2 : ir.x.length ≠ (removeElement rx k).length
    · rw [if_pos h2] at h
      exact nomatch h
    · rw [if_neg h2] at h
      obtain rfl := Except.ok.inj h
      exact Or.inr ⟨h1, ir, hir, not_not.1 h2, rfl, rfl⟩

theorem pheno_plain (x : List ℝ) : GenoPheno.plain.pheno x = .ok x := rfl

theorem removeElement_length {α : Type} {v : List α} {k : ℕ} (h : k < v.length) :
    (removeElement v k).length = v.length - 1 := by
  unfold removeElement
  rw [if_neg (by omega)]
  simp
  omega

theorem addElement_length {α : Type} {v : List α} {k : ℕ} (h : k ≤ v.length) (a : α) :
    (addElement v k a).length = v.length + 1 := by
  unfold addElement
  rw [if_neg (by omega)]
  simp
  omega

theorem addElement_get {α : Type} {v : List α} {k : ℕ} (h : k ≤ v.length) (a : α) : (addElement v k a)[k]? = some a := by
  unfold addElement
  rw [if_neg (by omega), List.getElem?_append_right (by simp)]
  simp [min_eq_left h]

/-- With no transformation, on a solution that has candidates, nothing goes wrong. -/
theorem optimizeVpk_plain_ok {f : List ℝ → FVal} {inner : Inner} (hi : Inner.Fits inner) (no : ℕ) {cands : List (Cand n)}
    (hc : cands ≠ []) (k : Fin n) (v : ℝ) (x : Vec n) :
    ∃ r, optimizeVpk f inner no GenoPheno.plain cands [(k.val, v)] (List.ofFn x) false false = .ok r ∧
      r.best.2.length = n := by
  rw [optimizeVpk_one]
  obtain ⟨c, cs, rfl⟩ := List.exists_cons_of_ne_nil hc
  have hl : (removeElement (List.ofFn x) k).length = n - 1 := by
    rw [removeElement_length (by simp)]; simp
  simp only [pheno_plain, Out.ok_bind, show at! (c :: cs) 0 = Except.ok c from rfl]
  by_cases h1 : removeElement (List.ofFn x) k = []
  · rw [if_pos h1]
    exact ⟨_, rfl, by simp⟩
  · rw [if_neg h1]
    obtain ⟨r, hr, hrl⟩ := hi no (rfunc f [k.val] ((List.replicate n 0).set k v)) (removeElement (List.ofFn x) k)
      (max 0 |c.x k - v|)
    rw [show GenoPheno.plain.removeDimensions [k.val] = GenoPheno.plain from rfl, hr, Out.ok_bind, if_neg (not_not.2 hrl)]
    refine ⟨_, rfl, ?_⟩
    have := k.2
    rw [addElement_length (by omega)]
    omega

/-- The steps are well defined: eigenvectors of the full model are there. -/
def Rotates (l : Line n) : Prop := l.sol.hasLeig = true ∧ l.diag = false

theorem rotated_ok {l : Line n} (h : Rotates l) (d : ℝ) :
    rotated l.sol l.diag l.k d = .ok (fun i => l.sol.leigenvectors l.k i * d) := by
  unfold rotated
  rw [h.1, h.2, if_neg (by simp)]
  simp only [Bool.false_eq_true, if_false]
  congr 1
  funext i
  unfold Matrix.mulVec dotProduct
  rw [Finset.sum_eq_single l.k]
  · simp [Matrix.transpose_apply]
  · intro b _ hb
    simp [Function.update_of_ne hb]
  · simp

theorem goesOn_plain {l : Line n} (hg : l.gp = GenoPheno.plain) (above : Bool) (fdiff : FVal) (i : ℕ) (y : Vec n) :
    ∃ b, l.goesOn above fdiff i y = .ok b := by
  unfold Line.goesOn
  rw [hg]
  exact ⟨_, rfl⟩

theorem loop_plain_ok {l : Line n} (hg : l.gp = GenoPheno.plain) (hr : Rotates l) (above linit : Bool) (x : Vec n)
    (fuel : ℕ) : ∀ (i : ℕ) (d : ℝ) (xt y : Vec n) (fdiff : FVal) (ev : ℕ),
    ∃ o, l.loop above linit x fuel i d xt y fdiff ev = .ok o := by
  induction fuel with
  | zero =>
    intro i d xt y fdiff ev
    rw [loop_eq]
    obtain ⟨b, hb⟩ := goesOn_plain hg above fdiff i y
    rw [hb, Out.ok_bind]
    cases b <;> exact ⟨_, rfl⟩
  | succ fuel ih =>
    intro i d xt y fdiff ev
    rw [loop_eq]
    obtain ⟨b, hb⟩ := goesOn_plain hg above fdiff i y
    rw [hb, Out.ok_bind]
    cases b
    · exact ⟨_, rfl⟩
    · rw [if_pos rfl]
      simp only [rotated_ok hr, Out.ok_bind, hg, phenoV_plain]
      exact ih _ _ _ _ _ _

theorem takeLinearStep_plain_ok {l : Line n} (hg : l.gp = GenoPheno.plain) (hr : Rotates l) (fuel nmax : ℕ) (linit : Bool)
    (d : ℝ) (x : Vec n) : ∃ o, takeLinearStep l fuel nmax linit d x = .ok o := by
  unfold takeLinearStep
  simp only [rotated_ok hr, Out.ok_bind, hg, phenoV_plain, Out.pure_eq]
  split_ifs
  all_goals
    simp only [Out.ok_bind]
    obtain ⟨o, ho⟩ := loop_plain_ok hg hr (decide (FVal.lt (FVal.ofReal (l.fup + l.delta * l.fup))
      (FVal.sub (l.f (List.ofFn x)) l.minf).abs)) linit _ fuel nmax d x x
      (FVal.sub (l.f (List.ofFn x)) l.minf).abs 1
    rw [ho]
    exact ⟨_, rfl⟩

theorem toVec_of_length {l : List ℝ} (h : l.length = n) : ∃ x : Vec n, toVec n l = .ok x := by
  unfold toVec
  rw [dif_pos h]
  exact ⟨_, rfl⟩

/-- With no transformation the search meets no error. -/
theorem searchLoop_plain_ok {q : Profile n} {inner : Inner} (hi : Inner.Fits inner) (hg : q.gp = GenoPheno.plain)
    (hr : Rotates q.toLine) (hc : q.sol.cands ≠ []) (lfuel : ℕ) (neg : Bool) (fuel : ℕ) :
    ∀ (i : ℕ) (linit : Bool) (d : ℝ) (x : Vec n) (le : Pli n) (no : ℕ), le.Shaped → le.samplesize = q.samplesize →
    (q.curve = true → i < q.samplesize) →
    ∃ o, searchLoop q inner lfuel neg fuel i linit d x le no = .ok o := by
  induction fuel with
  | zero => intro i linit d x le no _ _ _; exact ⟨_, rfl⟩
  | succ fuel ih =>
    intro i linit d x le no hs hle hcu
    unfold searchLoop
    obtain ⟨t, ht⟩ := takeLinearStep_plain_ok hg hr lfuel 10 linit d x
    rw [ht, Out.ok_bind]
    rcases t with _ | ⟨d1, x1, ev⟩
    · exact ⟨_, rfl⟩
    simp only
    obtain ⟨r, hopt, hrl⟩ := optimizeVpk_plain_ok (f := q.f) hi no hc q.k (x1 q.k) x1
    rw [hg, hopt, Out.ok_bind]
    have hf : ∃ v, idx le.fvaluem le.samplesize = .ok v :=
      ⟨_, idx_eq_ok.2 (List.getElem?_eq_getElem (by rw [hs.fv]; omega))⟩
    have hx : ∃ v, idx le.xm le.samplesize = .ok v :=
      ⟨_, idx_eq_ok.2 (List.getElem?_eq_getElem (by rw [hs.xm]; omega))⟩
    obtain ⟨v, hv⟩ := hf
    obtain ⟨c, hcx⟩ := hx
    by_cases h1 : r.status < 0 ∨ FVal.lt r.best.1 q.minf.tenth
    · rw [if_pos h1, hv, Out.ok_bind, hcx, Out.ok_bind]
      obtain ⟨p, hp, _⟩ := Pli.pad_spec hs neg v c r.status
      rw [hp]
      exact ⟨_, rfl⟩
    · rw [if_neg h1]
      obtain ⟨x2, hx2⟩ := toVec_of_length hrl
      rw [hx2, Out.ok_bind, phenoV_plain, Out.ok_bind]
      obtain ⟨le1, hl1, hlk⟩ : ∃ le1, (if q.curve = true then le.put neg i r.best.1 x2 r.status else pure le) =
          Except.ok le1 ∧ Pli.Like le1 le := by
        split_ifs with hcv
        · obtain ⟨p, hp⟩ := Pli.put_ok hs neg (j := i) (by rw [hle]; exact hcu hcv) r.best.1 x2 r.status
          exact ⟨p, hp, Pli.put_like hp⟩
        · exact ⟨le, rfl, Pli.Like.refl _⟩
      rw [hl1, Out.ok_bind]
      have hs1 := hlk.shaped hs
      split_ifs with h2 h3
      · obtain ⟨p, hp, _⟩ := Pli.pad_spec hs1 neg r.best.1 x2 r.status
        rw [hp]
        exact ⟨_, rfl⟩
      · exact ⟨_, rfl⟩
      · refine ih (i + 1) false d1 x2 le1 (no + 1) hs1 (by rw [hlk.s, hle]) (fun hcv => ?_)
        have := hcu hcv
        push Not at h3
        have := h3.1 hcv
        omega

/-- With at least one round, a search that does not end is stuck in its first step. -/
theorem searchLoop_later {q : Profile n} {inner : Inner} {lfuel : ℕ} {neg : Bool} (hl : 10 ≤ lfuel) (fuel : ℕ) :
    ∀ {i no : ℕ} {d : ℝ} {x : Vec n} {le : Pli n} {o : Option (Pli n × ℕ)}, (i : ℤ) < q.maxiters →
    q.maxiters ≤ i + fuel → searchLoop q inner lfuel neg fuel i false d x le no = .ok o →
    ∃ r, o = some r ∧ no < r.2 ∧ (r.2 : ℤ) ≤ no + (q.maxiters - i) := by
  induction fuel with
  | zero => intro i no d x le o h1 h2 _; push_cast at h2; omega
  | succ fuel ih =>
    intro i no d x le o h1 h2 h
    rcases searchLoop_succ h with ⟨ht, _⟩ | ⟨d1, x1, ev, r, _, _, h⟩
    · obtain ⟨y, fd, x1, r, _, _, h3, h4⟩ := takeLinearStep_eq ht
      have : ∃ t, r = some t := by
        rcases h3 with ⟨_, _, h3⟩ | ⟨_, _, h3⟩
        · obtain ⟨t, ht, _⟩ := loop_later lfuel hl h3
          exact ⟨t, ht⟩
        · obtain ⟨t, ht, _⟩ := loop_later lfuel hl h3
          exact ⟨t, ht⟩
      obtain ⟨t, rfl⟩ := this
      exact nomatch h4
    · rcases h with ⟨_, v, c, le1, _, _, _, rfl⟩ | ⟨_, x2, bx, le1, _, _, _, h⟩
      · exact ⟨_, rfl, by simp, by simp; omega⟩
      · rcases h with ⟨_, _, le2, _, rfl⟩ | ⟨_, ⟨_, rfl⟩ | ⟨h5, h⟩⟩
        · exact ⟨_, rfl, by simp, by simp; omega⟩
        · exact ⟨_, rfl, by simp, by simp; omega⟩
        · push Not at h5
          have := h5.2
          push_cast at h2
          obtain ⟨r, hr, h6, h7⟩ := ih (by push_cast; omega) (by push_cast; omega) h
          push_cast at h7
          exact ⟨r, hr, by omega, by omega⟩

theorem searchLoop_first {q : Profile n} {inner : Inner} {lfuel fuel no : ℕ} {neg linit : Bool} (hl : 10 ≤ lfuel)
    {d : ℝ} {x : Vec n} {le : Pli n} {o : Option (Pli n × ℕ)} (h1 : 1 ≤ q.maxiters) (h2 : q.maxiters ≤ fuel)
    (ht : takeLinearStep q.toLine lfuel 10 linit d x ≠ .ok none)
    (h : searchLoop q inner lfuel neg fuel 0 linit d x le no = .ok o) :
    ∃ r, o = some r ∧ no < r.2 ∧ (r.2 : ℤ) ≤ no + q.maxiters := by
  obtain ⟨fuel, rfl⟩ : ∃ m, fuel = m + 1 := ⟨fuel - 1, by omega⟩
  rcases searchLoop_succ h with ⟨ht', _⟩ | ⟨d1, x1, ev, r, _, _, h⟩
  · exact absurd ht' ht
  · rcases h with ⟨_, v, c, le1, _, _, _, rfl⟩ | ⟨_, x2, bx, le1, _, _, _, h⟩
    · exact ⟨_, rfl, by simp, by simp; omega⟩
    · rcases h with ⟨_, _, le2, _, rfl⟩ | ⟨_, ⟨_, rfl⟩ | ⟨h5, h⟩⟩
      · exact ⟨_, rfl, by simp, by simp; omega⟩
      · exact ⟨_, rfl, by simp, by simp; omega⟩
      · push Not at h5
        have := h5.2
        push_cast at h2 this
        obtain ⟨r, hr, h6, h7⟩ := searchLoop_later hl fuel (by push_cast; omega) (by push_cast; omega) h
        push_cast at h7
        exact ⟨r, hr, by omega, by omega⟩

/-! ## The first step -/

/-- Doubling the step leaves the range of the numbers in the end. -/
theorem loop_doubling {l : Line n} (hg : l.gp = GenoPheno.plain) (hr : Rotates l) (x : Vec n) (fuel : ℕ) :
    ∀ {i : ℕ} {d : ℝ} {xt y : Vec n} {fdiff : FVal} {ev : ℕ}, l.loop false true x fuel i d xt y fdiff ev = .ok none →
    ∀ m, 1 ≤ m → m ≤ fuel → |x l.k + l.sol.leigenvectors l.k l.k * (d * 2 ^ m)| ≤ dblMax := by
  induction fuel with
  | zero => intro i d xt y fdiff ev _ m h1 h2; omega
  | succ fuel ih =>
    intro i d xt y fdiff ev h m h1 h2
    rcases loop_cases h with ⟨_, h⟩ | ⟨_, ⟨h, _⟩ | ⟨f', dv, y', hf, hdv, hy', h⟩⟩
    · exact nomatch h
    · omega
    · obtain rfl : f' = fuel := by omega
      rw [rotated_ok hr] at hdv
      rw [hg, phenoV_plain] at hy'
      obtain rfl := Except.ok.inj hdv
      obtain rfl := Except.ok.inj hy'
      simp only [Bool.false_eq_true, if_false] at h
      rcases Nat.lt_or_ge 1 m with hm | hm
      · have := ih h (m - 1) (by omega) (by omega)
        have e : d * 2 ^ m = d * 2 * 2 ^ (m - 1) := by
          rw [mul_assoc, ← pow_succ', Nat.sub_add_cancel h1]
        rw [e]
        exact this
      · obtain rfl : m = 1 := by omega
        rcases loop_cases h with ⟨_, h⟩ | ⟨hgo, _⟩
        · exact nomatch h
        · obtain ⟨_, lo, hi, h3, h4, h5, h6⟩ := goesOn_true hgo
          rw [hg] at h3 h4
          obtain rfl : -dblMax = lo := Except.ok.inj h3
          obtain rfl : dblMax = hi := Except.ok.inj h4
          rw [pow_one, abs_le]
          exact ⟨h5, h6⟩

theorem exists_far {a c : ℝ} (hc : c ≠ 0) (b : ℝ) : ∃ m : ℕ, 1 ≤ m ∧ b < |a + c * 2 ^ m| := by
  have hc' : 0 < |c| := abs_pos.2 hc
  obtain ⟨m, hm⟩ := pow_unbounded_of_one_lt ((b + |a|) / |c|) (one_lt_two (α := ℝ))
  refine ⟨m + 1, by omega, ?_⟩
  have h1 : b + |a| < |c| * 2 ^ m := by
    rw [div_lt_iff₀ hc'] at hm
    linarith
  have h2 : |c| * 2 ^ m ≤ |c| * 2 ^ (m + 1) := by
    apply mul_le_mul_of_nonneg_left _ hc'.le
    exact pow_le_pow_right₀ one_le_two (by omega)
  have h3 : |c * 2 ^ (m + 1)| = |c| * 2 ^ (m + 1) := by
    rw [abs_mul, abs_of_pos (show (0 : ℝ) < 2 ^ (m + 1) by positivity)]
  have h4 := abs_sub_abs_le_abs_sub (c * 2 ^ (m + 1)) (-a)
  rw [abs_neg, sub_neg_eq_add, add_comm (c * 2 ^ (m + 1)) a] at h4
  linarith

/-- With no transformation, the first step ends if it moves the parameter. -/
theorem takeLinearStep_first_ends {l : Line n} (hg : l.gp = GenoPheno.plain) (hr : Rotates l) {d : ℝ} {x : Vec n} {a : ℝ}
    (hf : l.f (List.ofFn x) = FVal.ofReal a) (hm : l.minf = FVal.ofReal a) (h0 : 0 ≤ l.fup + l.delta * l.fup)
    (hd : d ≠ 0) (hE : l.sol.leigenvectors l.k l.k ≠ 0) :
    ∃ N, ∀ fuel ≥ N, ∀ nmax, takeLinearStep l fuel nmax true d x ≠ .ok none := by
  obtain ⟨m, hm1, hm2⟩ := exists_far (a := x l.k) (c := l.sol.leigenvectors l.k l.k * d) (mul_ne_zero hE hd) dblMax
  refine ⟨m, fun fuel hfu nmax h => ?_⟩
  obtain ⟨y, fd, x1, r, hy, hfd, h1, h2⟩ := takeLinearStep_eq h
  rw [hg, phenoV_plain] at hy
  obtain rfl := Except.ok.inj hy
  rw [hf, hm, FVal.sub_ofReal, FVal.abs_ofReal, sub_self, abs_zero] at hfd
  have hr' : r = none := by
    cases r with
    | none => rfl
    | some r => exact nomatch h2
  subst hr'
  rcases h1 with ⟨hlt, _⟩ | ⟨_, rfl, h1⟩
  · rw [hfd] at hlt
    have := FVal.lt_ofReal.1 hlt
    linarith
  · have := loop_doubling hg hr _ fuel h1 m hm1 hfu
    rw [← mul_assoc] at this
    linarith

end ErrStats

end Libcmaes
