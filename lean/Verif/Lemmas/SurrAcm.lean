import Verif.Lemmas.SurrError

/-! # The ACM surrogate strategy: lemmas -/

namespace Libcmaes

open Spec

variable {n : ℕ} {M : Type}

namespace Surr

/-! ### Drawing distinct indices -/

theorem drawDistinct_ok {draw : ℕ → Out ℤ} {size : ℕ} {target : ℤ} {fuel k k' : ℕ} {acc is : List ℕ}
    (hnd : acc.Nodup) (hlt : ∀ a ∈ acc, a < size)
    (h : drawDistinct draw size target fuel k acc = .ok (some (is, k'))) :
    acc <+: is ∧ is.Nodup ∧ (∀ a ∈ is, a < size) ∧ (is.length : ℤ) = max (acc.length : ℤ) target := by
  induction fuel generalizing k acc with
  | zero =>
    unfold drawDistinct at h
    split_ifs at h with ht
    · injection h with h; injection h with h; injection h with h1 h2
      subst h1
      exact ⟨List.prefix_rfl, hnd, hlt, by omega⟩
    · injection h with h; cases h
  | succ fuel ih =>
    unfold drawDistinct at h
    split_ifs at h with ht
    · injection h with h; injection h with h; injection h with h1 h2
      subst h1
      exact ⟨List.prefix_rfl, hnd, hlt, by omega⟩
    · obtain ⟨a, ha, h⟩ := Out.bind_eq_ok.1 h
      split_ifs at h with h0 h1
      · obtain ⟨q1, q2, q3, q4⟩ := ih (acc := acc ++ [a.toNat])
          (List.nodup_append.2 ⟨hnd, List.nodup_singleton _, by
            intro x hx y hy hxy
            rw [List.mem_singleton] at hy
            rw [hxy, hy] at hx
            exact h1.2 hx⟩)
          (by
            intro x hx
            rcases List.mem_append.1 hx with hx | hx
            · exact hlt x hx
            · rw [List.mem_singleton] at hx; omega) h
        refine ⟨(List.prefix_append _ _).trans q1, q2, q3, ?_⟩
        rw [q4, List.length_append, List.length_singleton]
        omega
      · exact ih hnd hlt h

/-- More indices than there are can never be found. -/
theorem drawDistinct_never {draw : ℕ → Out ℤ} {size : ℕ} {target : ℤ} {fuel k : ℕ} {acc : List ℕ}
    (hnd : acc.Nodup) (hlt : ∀ a ∈ acc, a < size) (h : (size : ℤ) < target) (r : List ℕ × ℕ) :
    drawDistinct draw size target fuel k acc ≠ .ok (some r) := by
  intro hr
  obtain ⟨_, q2, q3, q4⟩ := drawDistinct_ok hnd hlt (is := r.1) (k' := r.2) hr
  have h1 : r.1.length ≤ size := by
    have := (q2.subperm (l₂ := List.range size) (fun a ha => List.mem_range.2 (q3 a ha))).length_le
    simpa using this
  have : target ≤ r.1.length := by rw [q4]; exact le_max_right _ _
  omega

/-- Enough indices are found if the draws go on hitting every index. -/
theorem drawDistinct_total {draw : ℕ → Out ℤ} {size : ℕ} {target : ℤ} (hd : ∀ k, ∃ a, draw k = .ok a ∧ 0 ≤ a)
    (hit : ∀ i < size, ∀ k, ∃ k' ≥ k, draw k' = .ok i) (ht : target ≤ size) (k : ℕ) (acc : List ℕ)
    (hlt : ∀ a ∈ acc, a < size) (hnd : acc.Nodup) :
    ∃ fuel r, drawDistinct draw size target fuel k acc = .ok (some r) := by
  generalize hm : (target - acc.length).toNat = m
  induction m generalizing k acc with
  | zero =>
    refine ⟨0, (acc, k), ?_⟩
    unfold drawDistinct
    rw [if_pos (by omega)]
  | succ m ih =>
    have hne : ∃ i < size, i ∉ acc := by
      by_contra hc
      push Not at hc
      have := ((List.nodup_range (n := size)).subperm (l₂ := acc)
        (fun a ha => hc a (List.mem_range.1 ha))).length_le
      rw [List.length_range] at this
      omega
    obtain ⟨i, hi, hia⟩ := hne
    obtain ⟨k', hk', hdk⟩ := hit i hi k
    -- wait until the draw `k'` or an earlier new index
    obtain ⟨d, rfl⟩ : ∃ d, k' = k + d := ⟨k' - k, by omega⟩
    clear hk'
    induction d generalizing k with
    | zero =>
      obtain ⟨fuel, r, hr⟩ := ih (k + 1) (acc ++ [i])
        (by
          intro x hx
          rcases List.mem_append.1 hx with hx | hx
          · exact hlt x hx
          · rw [List.mem_singleton] at hx; omega)
        (List.nodup_append.2 ⟨hnd, List.nodup_singleton _, by
            intro x hx y hy hxy
            rw [List.mem_singleton] at hy
            rw [hxy, hy] at hx
            exact hia hx⟩) (by rw [List.length_append, List.length_singleton]; omega)
      refine ⟨fuel + 1, r, ?_⟩
      unfold drawDistinct
      rw [if_neg (by omega)]
      simp only
      rw [show draw k = .ok (i : ℤ) from hdk, Out.ok_bind, if_neg (by omega),
        if_pos ⟨by exact_mod_cast hi, by simpa using hia⟩]
      simpa using hr
    | succ d ihd =>
      obtain ⟨a, ha, ha0⟩ := hd k
      by_cases hnew : a < size ∧ a.toNat ∉ acc
      · obtain ⟨fuel, r, hr⟩ := ih (k + 1) (acc ++ [a.toNat])
          (by
            intro x hx
            rcases List.mem_append.1 hx with hx | hx
            · exact hlt x hx
            · rw [List.mem_singleton] at hx; omega)
          (List.nodup_append.2 ⟨hnd, List.nodup_singleton _, by
              intro x hx y hy hxy
              rw [List.mem_singleton] at hy
              rw [hxy, hy] at hx
              exact hnew.2 hx⟩) (by rw [List.length_append, List.length_singleton]; omega)
        refine ⟨fuel + 1, r, ?_⟩
        unfold drawDistinct
        rw [if_neg (by omega)]
        simp only
        rw [ha, Out.ok_bind, if_neg (by omega), if_pos hnew]
        exact hr
      · obtain ⟨fuel, r, hr⟩ := ihd (k + 1) (by rw [show k + 1 + d = k + (d + 1) by omega]; exact hdk)
        refine ⟨fuel + 1, r, ?_⟩
        unfold drawDistinct
        rw [if_neg (by omega)]
        simp only
        rw [ha, Out.ok_bind, if_neg (by omega), if_neg hnew]
        exact hr

/-! ### True evaluation of the selected candidates -/

theorem acmEvalOne_ok {env : Env n} {q q' : Surr n M × List (RCand n) × List (Cand n)} {i : ℕ}
    (h : acmEvalOne env q i = .ok q') :
    ∃ c y, q.2.1[i]? = some c ∧ phenoV q.1.s.p.gp c.1.x = .ok y ∧
      q' = ({ q.1 with
          tset := push q.1.l q.1.tset { c.1 with fvalue := negIf q.1.s.negate (env.f q.1.s.calls.length y) }
          s := { q.1.s with
            calls := q.1.s.calls ++ [(y, env.f q.1.s.calls.length y)]
            nevals := q.1.s.nevals + 1
            sol := { q.1.s.sol with nevals := q.1.s.sol.nevals + 1 } } },
        q.2.1.set i ({ c.1 with fvalue := negIf q.1.s.negate (env.f q.1.s.calls.length y) }, c.2),
        q.2.2 ++ [{ c.1 with fvalue := negIf q.1.s.negate (env.f q.1.s.calls.length y) }]) := by
  unfold acmEvalOne at h
  obtain ⟨c, hc, h⟩ := Out.bind_eq_ok.1 h
  obtain ⟨y, hy, h⟩ := Out.bind_eq_ok.1 h
  injection h with h
  refine ⟨c, y, at!_eq_ok.1 hc, hy, ?_⟩
  rw [← h]
  rfl

/-- The evaluation loop: `ds` are the evaluated candidates, in order. -/
theorem acmEvalFold_ok {env : Env n} {js : List ℕ} {q q' : Surr n M × List (RCand n) × List (Cand n)}
    (hnd : js.Nodup) (h : js.foldlM (acmEvalOne env) q = .ok q') :
    ∃ (c : List (Vec n × FVal)) (ds : List (Cand n)), List.Forall₂ (Answers q.1.s.negate q.1.s.p.gp) ds c ∧
      q'.1 = { q.1 with
        tset := ds.foldl (push q.1.l) q.1.tset
        s := { q.1.s with
          calls := q.1.s.calls ++ c
          nevals := q.1.s.nevals + js.length
          sol := { q.1.s.sol with nevals := q.1.s.sol.nevals + js.length } } } ∧
      q'.2.2 = q.2.2 ++ ds ∧ q'.2.1.length = q.2.1.length ∧
      List.Forall₂ (fun j d => ∃ r : RCand n, q.2.1[j]? = some r ∧ d.x = r.1.x ∧ d.id = r.1.id ∧
        q'.2.1[j]? = some (d, r.2)) js ds ∧ (∀ i, i ∉ js → q'.2.1[i]? = q.2.1[i]?) ∧
      ∀ q ∈ c, ∃ k, q.2 = env.f k q.1 := by
  induction js generalizing q with
  | nil =>
    injection h with h
    subst h
    exact ⟨[], [], .nil, by simp, by simp, rfl, .nil, fun _ _ => rfl, by simp⟩
  | cons j js ih =>
    rw [List.foldlM_cons] at h
    obtain ⟨q1, h1, h⟩ := Out.bind_eq_ok.1 h
    obtain ⟨hj, hnd'⟩ := List.nodup_cons.1 hnd
    obtain ⟨r, y, hr, hy, e1⟩ := acmEvalOne_ok h1
    obtain ⟨c, ds, a1, a2, a3, a4, a5, a6, a7⟩ := ih hnd' h
    set d : Cand n := { r.1 with fvalue := negIf q.1.s.negate (env.f q.1.s.calls.length y) } with hd
    have hjl : j < q.2.1.length := (List.getElem?_eq_some_iff.1 hr).1
    refine ⟨(y, env.f q.1.s.calls.length y) :: c, d :: ds, ?_, ?_, ?_, ?_, ?_, ?_, ?_⟩
    · refine .cons ⟨hy, ?_⟩ ?_
      · rfl
      · rw [e1] at a1; exact a1
    · rw [a2, e1]
      simp [add_comm, add_left_comm]
    · rw [a3, e1]; simp [hd]
    · rw [a4, e1]; simp
    · refine .cons ⟨r, hr, rfl, rfl, ?_⟩ ?_
      · rw [a6 j hj, e1]
        simp [hd, hjl]
      · refine (List.forall₂_iff_get.2 ?_)
        obtain ⟨l1, l2⟩ := List.forall₂_iff_get.1 a5
        refine ⟨l1, fun i hi hi' => ?_⟩
        obtain ⟨r', w1, w2, w3, w4⟩ := l2 i hi hi'
        refine ⟨r', ?_, w2, w3, w4⟩
        rw [← w1, e1]
        simp only
        rw [List.getElem?_set_ne]
        intro hji
        apply hj
        rw [hji]
        exact List.get_mem js ⟨i, hi⟩
    · intro i hi
      rw [List.mem_cons, not_or] at hi
      rw [a6 i hi.2, e1]
      simp only
      rw [List.getElem?_set_ne (Ne.symm hi.1)]
    · intro p hp
      rcases List.mem_cons.1 hp with rfl | hp
      · exact ⟨_, rfl⟩
      · exact a7 p hp

/-! ### Lists and their indices -/

theorem subperm_map {α β : Type} (f : α → β) {l l' : List α} (h : l.Subperm l') : (l.map f).Subperm (l'.map f) := by
  obtain ⟨m, h1, h2⟩ := h
  exact ⟨m.map f, h1.map f, h2.map f⟩

theorem map_getD_range {α : Type} (l : List α) (d : α) : (List.range l.length).map (fun i => l.getD i d) = l := by
  refine List.ext_getElem (by simp) fun i h1 h2 => ?_
  simp [h2]

theorem pick_subperm {α : Type} (l : List α) (d : α) {is : List ℕ} (hnd : is.Nodup) (hlt : ∀ i ∈ is, i < l.length) :
    (is.map fun i => l.getD i d).Subperm l := by
  have h := subperm_map (fun i => l.getD i d)
    (hnd.subperm (l₂ := List.range l.length) fun i hi => List.mem_range.2 (hlt i hi))
  rwa [map_getD_range] at h

theorem pick_perm {α : Type} (l : List α) (d : α) {js : List ℕ} (hnd : js.Nodup) (hlt : ∀ i ∈ js, i < l.length) :
    l.Perm ((js.map fun i => l.getD i d) ++
      ((List.range l.length).filter fun i => decide (i ∉ js)).map fun i => l.getD i d) := by
  rw [← List.map_append]
  have h : (List.range l.length).Perm (js ++ (List.range l.length).filter fun i => decide (i ∉ js)) := by
    rw [List.perm_ext_iff_of_nodup List.nodup_range]
    · intro i
      simp only [List.mem_range, List.mem_append, List.mem_filter, decide_eq_true_eq]
      constructor
      · intro hi
        by_cases hj : i ∈ js
        · exact Or.inl hj
        · exact Or.inr ⟨hi, hj⟩
      · rintro (hi | hi)
        · exact hlt i hi
        · exact hi.1
    · refine List.nodup_append.2 ⟨hnd, List.nodup_range.filter _, ?_⟩
      intro a ha b hb hab
      rw [List.mem_filter] at hb
      subst hab
      simpa [ha] using hb.2
  have := h.map fun i => l.getD i d
  rwa [map_getD_range] at this

/-! ### The pre-selection -/

/-- The candidates retained: of the candidates `pr` as predicted, sorted into `srt`, those at the distinct ranks
`is`; the first has the best predicted value of all. -/
theorem preSelect_ok {sf : SurrFuncs n M} {fuel : ℕ} {t t' : Surr n M} {cols : List (Vec n)} {nc : List (RCand n)}
    (h : t.preSelect sf fuel cols = .ok (some (nc, t'))) :
    ∃ (pr srt : List (Cand n)) (k : ℕ) (is : List ℕ), sf.predict t.m t.tset
        { t.s.sol with cands := cols.map fun x => ⟨FVal.ofReal 0, x, -1⟩ }
        (cols.map fun x => ⟨FVal.ofReal 0, x, -1⟩) = .ok pr ∧
      t' = { t with n0 := k, s := { t.s with sol := { t.s.sol with cands := srt } } } ∧
      srt.Perm pr ∧ (srt.Pairwise fun a b => ¬ FVal.lt b.fvalue a.fvalue) ∧
      is.Nodup ∧ (∀ i ∈ is, i < srt.length) ∧ (is.length : ℤ) = max 1 (t.s.p.lambda : ℤ) ∧
      (nc.map Prod.snd).Perm (is.map Int.ofNat) ∧
      (∀ r ∈ nc, 0 ≤ r.2 ∧ srt[r.2.toNat]? = some r.1) ∧
      ∃ r, nc[0]? = some r ∧ ∀ a ∈ pr, ¬ FVal.lt a.fvalue r.1.fvalue := by
  unfold preSelect at h
  obtain ⟨pr, hpr, h⟩ := Out.bind_eq_ok.1 h
  obtain ⟨srt, hsrt, h⟩ := Out.bind_eq_ok.1 h
  obtain ⟨c0, hc0, h⟩ := Out.bind_eq_ok.1 h
  obtain ⟨o, ho, h⟩ := Out.bind_eq_ok.1 h
  rcases o with _ | ⟨is, k⟩
  · injection h with h; cases h
  simp only at h
  obtain ⟨rest, hrest, h⟩ := Out.bind_eq_ok.1 h
  obtain ⟨nc', hnc, h⟩ := Out.bind_eq_ok.1 h
  injection h with h
  injection h with h
  injection h with h1 h2
  subst h1
  have hc0' := at!_eq_ok.1 hc0
  have hpos : 0 < srt.length := (List.getElem?_eq_some_iff.1 hc0').1
  obtain ⟨d1, d2, d3, d4⟩ := drawDistinct_ok (acc := [0]) (List.nodup_singleton 0)
    (by intro a ha; rw [List.mem_singleton] at ha; omega) ho
  have hs := (stableSort_eq_ok hsrt).2
  have hsort : srt.Pairwise fun a b => ¬ FVal.lt b.fvalue a.fvalue := hs.sorted
  obtain ⟨u1, u2, u3⟩ := unstableSort_ok hnc
  obtain ⟨tl, htl⟩ := d1
  subst htl
  have hrest' : List.Forall₂ (fun (i : ℕ) (r : RCand n) => srt[i]? = some r.1 ∧ r.2 = (i : ℤ)) tl rest := by
    have := Out.mapM_eq_ok.1 hrest
    refine this.imp fun i r hir => ?_
    obtain ⟨c, hc, hir⟩ := Out.bind_eq_ok.1 hir
    injection hir with hir
    rw [← hir]
    exact ⟨at!_eq_ok.1 hc, rfl⟩
  have hall : ∀ r ∈ nc', 0 ≤ r.2 ∧ srt[r.2.toNat]? = some r.1 := by
    intro r hr
    rcases List.mem_cons.1 (u2.mem_iff.1 hr) with rfl | hr
    · exact ⟨le_refl _, hc0'⟩
    · obtain ⟨l1, l2⟩ := List.forall₂_iff_get.1 hrest'
      obtain ⟨i, hi⟩ := List.get_of_mem hr
      obtain ⟨w1, w2⟩ := l2 i (by rw [l1]; exact i.2) i.2
      rw [hi] at w1 w2
      rw [w2]
      exact ⟨Int.natCast_nonneg _, by simpa using w1⟩
  refine ⟨pr, srt, k, [0] ++ tl, hpr, h2.symm, hs.perm, hsort, d2, d3, by simpa using d4, ?_, hall, ?_⟩
  · refine (u2.map Prod.snd).trans ?_
    have : rest.map Prod.snd = tl.map Int.ofNat := by
      have := hrest'.imp (S := fun i r => r.2 = Int.ofNat i) fun i r h => h.2
      clear * - this
      induction this with
      | nil => rfl
      | cons h _ ih => simp [h, ih]
    simp [this]
  · have hl : 0 < nc'.length := by rw [u2.length_eq]; simp
    refine ⟨nc'[0], List.getElem?_eq_getElem hl, fun a ha => ?_⟩
    -- the best of all is among the retained
    have hm : (c0, (0 : ℤ)) ∈ nc' := u2.mem_iff.2 (by simp)
    have hsw := (strictWeakOn_fval (fun c : Cand n => c.fvalue) pr).1 (stableSort_eq_ok hsrt).1
    have ha' : a ∈ srt := hs.perm.mem_iff.2 ha
    have h0 : ¬ FVal.lt a.fvalue c0.fvalue := by
      obtain ⟨i, hi, rfl⟩ := List.getElem_of_mem ha'
      have e0 : srt[0] = c0 := (List.getElem?_eq_some_iff.1 hc0').2
      rcases Nat.eq_zero_or_pos i with rfl | hi0
      · rw [e0]; exact FVal.lt_irrefl _
      · rw [← e0]
        exact List.pairwise_iff_getElem.1 hsort 0 i hpos hi hi0
    have h1 : ¬ FVal.lt c0.fvalue nc'[0].1.fvalue := by
      obtain ⟨i, hi, hi'⟩ := List.getElem_of_mem hm
      rcases Nat.eq_zero_or_pos i with rfl | hi0
      · rw [hi']; exact FVal.lt_irrefl _
      · have := List.pairwise_iff_getElem.1 u3 0 i hl hi hi0
        rw [hi'] at this
        exact this
    have hx : nc'[0].1 ∈ pr := hs.perm.mem_iff.1 (List.mem_of_getElem? (hall _ (List.getElem_mem hl)).2)
    rcases hsw with hnum | hno
    · exact FVal.not_lt_trans (hnum _ (hs.perm.mem_iff.1 (List.mem_of_getElem? hc0'))) h1 h0
    · exact hno _ ha _ hx

/-- The evaluation of the retained candidates. -/
theorem evalSelected_ok {env : Env n} {sf : SurrFuncs n M} {fuel : ℕ} {t t' : Surr n M} {nc : List (RCand n)}
    (hpos : 0 < nc.length) (h : t.evalSelected env sf fuel nc = .ok (some t')) :
    ∃ (c : List (Vec n × FVal)) (ds : List (Cand n)) (js : List ℕ) (k : ℕ) (nc2 nc3 : List (RCand n)) (e : Option ℝ),
      js.Nodup ∧ (∀ j ∈ js, j < nc.length) ∧ (js.length : ℤ) = max 1 t.lambdaprime ∧ 0 ∈ js ∧
      List.Forall₂ (Answers t.s.negate t.s.p.gp) ds c ∧ ds.length = js.length ∧
      ({ t with
        n1 := k, tset := ds.foldl (push t.l) t.tset
        s := { t.s with
          calls := t.s.calls ++ c, nevals := t.s.nevals + js.length
          sol := { t.s.sol with nevals := t.s.sol.nevals + js.length } } } : Surr n M).computeError sf ds = .ok e ∧
      t' = { t with
        n1 := k, tset := ds.foldl (push t.l) t.tset, testErr := e, smooth := (t.setTestError e).smooth
        s := { t.s with
          calls := t.s.calls ++ c, nevals := t.s.nevals + js.length
          sol := { t.s.sol with nevals := t.s.sol.nevals + js.length, cands := nc3.map Prod.fst } } } ∧
      List.Forall₂ (fun a b : RCand n => b.1.x = a.1.x ∧ b.2 = a.2) nc nc2 ∧
      List.Forall₂ (fun j d => ∃ r : RCand n, nc2[j]? = some (d, r.2)) js ds ∧
      (∀ i r, i ∉ js → nc2[i]? = some r → r.1.fvalue = FVal.ofReal dblMax) ∧
      nc3.Perm nc2 ∧ (nc3.Pairwise fun a b => ¬ acmLess b a) ∧ ∀ q ∈ c, ∃ k, q.2 = env.f k q.1 := by
  unfold evalSelected at h
  obtain ⟨o, ho, h⟩ := Out.bind_eq_ok.1 h
  rcases o with _ | ⟨js, k⟩
  · injection h with h; cases h
  simp only at h
  obtain ⟨d1, d2, d3, d4⟩ := drawDistinct_ok (acc := [0]) (List.nodup_singleton 0)
    (by intro a ha; rw [List.mem_singleton] at ha; omega) ho
  obtain ⟨⟨t1, nc1, test⟩, hf, h⟩ := Out.bind_eq_ok.1 h
  obtain ⟨nc3, hs3, h⟩ := Out.bind_eq_ok.1 h
  obtain ⟨e, he, h⟩ := Out.bind_eq_ok.1 h
  have hfin := Option.some.inj (Except.ok.inj h)
  clear h
  obtain ⟨c, ds, a1, a2, a3, a4, a5, a6, a7⟩ := acmEvalFold_ok d2 hf
  simp only [List.nil_append] at a1 a2 a3 a4 a5 a6
  subst a3
  obtain ⟨u1, u2, u3⟩ := unstableSort_ok hs3
  set nc2 := nc1.zipIdx.map (fun q =>
      if q.2 ∈ js then q.1 else ({ q.1.1 with fvalue := FVal.ofReal dblMax }, q.1.2)) with hnc2
  have hg2 : ∀ i, nc2[i]? = (nc1[i]?).map fun r =>
      if i ∈ js then r else ({ r.1 with fvalue := FVal.ofReal dblMax }, r.2) := by
    intro i
    rw [hnc2, List.getElem?_map, List.getElem?_zipIdx, Option.map_map]
    cases nc1[i]? <;> simp
  have hl2 : nc2.length = nc.length := by rw [hnc2, List.length_map, List.length_zipIdx, a4]
  refine ⟨c, test, js, k, nc2, nc3, e, d2, d3, by simpa using d4, ?_, a1, a5.length_eq.symm, ?_, ?_, ?_, ?_, ?_,
    u2, u3, a7⟩
  · obtain ⟨tl, htl⟩ := d1
    rw [← htl]; simp
  · rw [a2] at he; exact he
  · rw [← hfin, a2]; rfl
  · refine List.forall₂_iff_get.2 ⟨hl2.symm, fun i hi hi' => ?_⟩
    have hi1 : i < nc1.length := by rw [a4]; exact hi
    have hb : nc2[i]? = some (nc2.get ⟨i, hi'⟩) := List.getElem?_eq_getElem hi'
    have ha : nc[i]? = some (nc.get ⟨i, hi⟩) := List.getElem?_eq_getElem hi
    rw [hg2] at hb
    by_cases hj : i ∈ js
    · obtain ⟨p, hp, hpi⟩ := List.getElem_of_mem hj
      obtain ⟨r, r1, r2, r3, r4⟩ := (List.forall₂_iff_get.1 a5).2 p hp (by rw [← a5.length_eq]; exact hp)
      simp only [List.get_eq_getElem, hpi] at r1 r2 r4
      rw [r4] at hb
      rw [r1] at ha
      injection ha with ha
      simp only [Option.map_some, if_pos hj] at hb
      injection hb with hb
      rw [← hb, ← ha]
      exact ⟨r2, rfl⟩
    · rw [a6 i hj, ha] at hb
      simp only [Option.map_some, if_neg hj] at hb
      injection hb with hb
      rw [← hb]
      exact ⟨rfl, rfl⟩
  · refine List.forall₂_iff_get.2 ⟨a5.length_eq, fun i hi hi' => ?_⟩
    obtain ⟨r, r1, r2, r3, r4⟩ := (List.forall₂_iff_get.1 a5).2 i hi hi'
    refine ⟨r, ?_⟩
    rw [hg2, r4, Option.map_some, if_pos (List.get_mem js ⟨i, hi⟩)]
  · intro i r hi hr
    rw [hg2] at hr
    cases h1 : nc1[i]? with
    | none => rw [h1] at hr; cases hr
    | some q =>
      rw [h1, Option.map_some, if_neg hi] at hr
      injection hr with hr
      rw [← hr]

/-- Pre-selection and evaluation together. -/
theorem preselected {env : Env n} {sf : SurrFuncs n M} {fuel : ℕ} {t t1 t' : Surr n M} {cols : List (Vec n)}
    {nc : List (RCand n)} (h1 : t.preSelect sf fuel cols = .ok (some (nc, t1)))
    (h2 : t1.evalSelected env sf fuel nc = .ok (some t')) :
    ∃ (pr : List (Cand n)) (c : List (Vec n × FVal)) (E rest L : List (Cand n × Cand n)) (k0 k1 : ℕ) (e : Option ℝ)
      (sol1 : Sol n),
      sf.predict t.m t.tset { t.s.sol with cands := cols.map fun x => ⟨FVal.ofReal 0, x, -1⟩ }
        (cols.map fun x => ⟨FVal.ofReal 0, x, -1⟩) = .ok pr ∧
      Preselected t.s.negate t.s.p.gp pr c E rest L ∧ (L.length : ℤ) = max 1 (t.s.p.lambda : ℤ) ∧
      (c.length : ℤ) = max 1 t.lambdaprime ∧
      ({ t with
        n0 := k0, n1 := k1, tset := (E.map Prod.fst).foldl (push t.l) t.tset
        s := { t.s with
          calls := t.s.calls ++ c, nevals := t.s.nevals + c.length, sol := sol1 } } : Surr n M).computeError sf
          (E.map Prod.fst) = .ok e ∧
      t' = { t with
        n0 := k0, n1 := k1, tset := (E.map Prod.fst).foldl (push t.l) t.tset, testErr := e
        smooth := (t.setTestError e).smooth
        s := { t.s with
          calls := t.s.calls ++ c, nevals := t.s.nevals + c.length
          sol := { t.s.sol with nevals := t.s.sol.nevals + c.length, cands := L.map Prod.fst } } } ∧
      ∀ q ∈ c, ∃ k, q.2 = env.f k q.1 := by
  obtain ⟨pr, srt, k, is, p1, p2, p3, p4, p5, p6, p7, p8, p9, r0, p10, p11⟩ := preSelect_ok h1
  have hpos : 0 < nc.length := (List.getElem?_eq_some_iff.1 p10).1
  obtain ⟨c, ds, js, k1, nc2, nc3, e, q1, q2, q3, q4, q5, q6, q7, q8, q9, q10, q11, q12, q13, q14⟩ := evalSelected_ok hpos h2
  have hcl : c.length = js.length := by rw [← q5.length_eq, q6]
  obtain ⟨l1, l2⟩ := List.forall₂_iff_get.1 q9
  have hpc : ∀ r ∈ nc2, 0 ≤ r.2 ∧ ∃ s, srt[r.2.toNat]? = some s ∧ s.x = r.1.x := by
    intro r hr
    obtain ⟨i, hi⟩ := List.get_of_mem hr
    obtain ⟨w1, w2⟩ := l2 i (by rw [l1]; exact i.2) i.2
    rw [hi] at w1 w2
    obtain ⟨v1, v2⟩ := p9 _ (List.get_mem nc ⟨i, by rw [l1]; exact i.2⟩)
    rw [w2, w1]
    exact ⟨v1, _, v2, rfl⟩
  have hsr : nc2.map Prod.snd = nc.map Prod.snd := by
    clear * - q9
    induction q9 with
    | nil => rfl
    | cons h _ ih => simp [h.2, ih]
  let d : Cand n := r0.1
  let P : RCand n → Cand n × Cand n := fun r => (r.1, srt.getD r.2.toNat d)
  let dd : RCand n := r0
  set others := (List.range nc2.length).filter (fun i => decide (i ∉ js)) with hoth
  have hpp := pick_perm nc2 dd q1 (by rw [← l1]; exact q2)
  rw [← hoth] at hpp
  have hEd : (js.map fun i => nc2.getD i dd).map (fun r => (P r).1) = ds := by
    clear * - q10
    induction q10 with
    | nil => rfl
    | cons h _ ih =>
      obtain ⟨r, hr⟩ := h
      simp only [List.map_cons, ih, List.cons.injEq, and_true]
      rw [List.getD_eq_getElem?_getD, hr]; rfl
  have hlen3 : (nc3.length : ℤ) = max 1 (t.s.p.lambda : ℤ) := by
    rw [q12.length_eq, ← l1, ← p7]
    have := p8.length_eq
    simp only [List.length_map] at this
    rw [this]
  have hE : ((js.map fun i => nc2.getD i dd).map P).map Prod.fst = ds := by rw [List.map_map]; exact hEd
  rw [← hE] at q5 q7 q8
  refine ⟨pr, c, (js.map fun i => nc2.getD i dd).map P, (others.map fun i => nc2.getD i dd).map P, nc3.map P, k, k1, e,
    { t.s.sol with nevals := t.s.sol.nevals + js.length, cands := srt }, p1, ⟨?_, ?_, ?_, ?_, ?_, ?_, ?_⟩, ?_, ?_, ?_, ?_, q14⟩
  · -- distinct
    have e1 : (nc3.map P).map Prod.snd = (nc3.map Prod.snd).map fun i => srt.getD i.toNat d := by
      rw [List.map_map, List.map_map]; rfl
    have e2 : (nc3.map Prod.snd).Perm (is.map Int.ofNat) := (q12.map Prod.snd).trans (by rw [hsr]; exact p8)
    have e3 := e2.map fun i => srt.getD i.toNat d
    rw [show (is.map Int.ofNat).map (fun i => srt.getD i.toNat d) = is.map fun i => srt.getD i d by
      rw [List.map_map]; rfl] at e3
    rw [e1]
    exact (e3.subperm.trans (pick_subperm srt d p5 p6)).trans p3.subperm
  · intro q hq
    obtain ⟨r, hr, rfl⟩ := List.mem_map.1 hq
    obtain ⟨_, s, hs, hx⟩ := hpc r (q12.mem_iff.1 hr)
    show r.1.x = (srt.getD r.2.toNat d).x
    rw [List.getD_eq_getElem?_getD, hs]; exact hx.symm
  · rw [← List.map_append]
    exact (q12.trans hpp).map P
  · rw [p2] at q5; exact q5
  · intro q hq
    rw [List.map_map] at hq
    obtain ⟨i, hi, rfl⟩ := List.mem_map.1 hq
    rw [hoth, List.mem_filter, List.mem_range] at hi
    refine q11 i _ (by simpa using hi.2) ?_
    show nc2[i]? = some (nc2.getD i dd)
    rw [List.getD_eq_getElem?_getD, List.getElem?_eq_getElem hi.1]; rfl
  · refine ⟨P (nc2.getD 0 dd), List.mem_map.2 ⟨_, List.mem_map.2 ⟨0, q4, rfl⟩, rfl⟩, fun a ha => ?_⟩
    have hn2 : 0 < nc2.length := by rw [← l1]; exact hpos
    obtain ⟨w1, w2⟩ := l2 0 hpos hn2
    have e0 : nc.get ⟨0, hpos⟩ = r0 := (List.getElem?_eq_some_iff.1 p10).2
    have e1 : nc2.getD 0 dd = nc2.get ⟨0, hn2⟩ := by
      rw [List.getD_eq_getElem?_getD, List.getElem?_eq_getElem hn2]; rfl
    show ¬ FVal.lt a.fvalue (srt.getD (nc2.getD 0 dd).2.toNat d).fvalue
    rw [e1, w2, e0, List.getD_eq_getElem?_getD, (p9 r0 (List.mem_of_getElem? p10)).2]
    exact p11 a ha
  · rw [List.pairwise_map]
    refine q13.imp_of_mem fun {a b} ha hb hab => ?_
    unfold acmLess at hab
    push Not at hab
    refine ⟨hab.1, fun heq => ?_⟩
    have hle := hab.2 (by
      revert heq
      show FVal.eq a.1.fvalue b.1.fvalue → FVal.eq b.1.fvalue a.1.fvalue
      cases a.1.fvalue <;> cases b.1.fvalue <;> simp [FVal.eq]
      exact Eq.symm)
    obtain ⟨a0, sa, ha1, _⟩ := hpc a (q12.mem_iff.1 ha)
    obtain ⟨b0, sb, hb1, _⟩ := hpc b (q12.mem_iff.1 hb)
    show ¬ FVal.lt (srt.getD b.2.toNat d).fvalue (srt.getD a.2.toNat d).fvalue
    rw [List.getD_eq_getElem?_getD, List.getD_eq_getElem?_getD, ha1, hb1]
    show ¬ FVal.lt sb.fvalue sa.fvalue
    obtain ⟨ia, ea⟩ := List.getElem?_eq_some_iff.1 ha1
    obtain ⟨ib, eb⟩ := List.getElem?_eq_some_iff.1 hb1
    rcases Nat.lt_or_ge a.2.toNat b.2.toNat with hlt | hge
    · have := List.pairwise_iff_getElem.1 p4 _ _ ia ib hlt
      rw [ea, eb] at this
      exact this
    · have : a.2.toNat = b.2.toNat := by omega
      have : sa = sb := by
        rw [this, hb1] at ha1; injection ha1 with h; exact h.symm
      rw [this]; exact FVal.lt_irrefl _
  · rw [List.length_map]; exact hlen3
  · rw [hcl, q3, p2]
  · rw [p2] at q7
    rw [hcl]
    exact q7
  · rw [q8, p2, hcl]
    simp only [List.map_map]
    rfl

end Surr

end Libcmaes
