import Verif.Lemmas.ErrStatsEnds

/-!
# Lemmas for the values stored in a profile and for several fixed parameters
-/

namespace Libcmaes

namespace ErrStats

variable {n : ℕ}

/-- Every point with its value, positions nothing was written to aside. -/
def Carries (f : List ℝ → FVal) (le : Pli n) : Prop :=
  ∀ (i : ℕ) (v : FVal) (x : Vec n), le.fvaluem[i]? = some v → le.xm[i]? = some x →
    f (List.ofFn x) = v ∨ (v = FVal.ofReal 0 ∧ x = 0)

theorem carries_make {f : List ℝ → FVal} {k s : ℕ} {y : Vec n} {v : FVal} {fup delta : ℝ} (h : f (List.ofFn y) = v) :
    Carries f (Pli.make k s y v fup delta) := by
  intro i w x hw hx
  have hw' : ((List.replicate (2 * s + 1) (FVal.ofReal 0)).set s v)[i]? = some w := hw
  have hx' : ((List.replicate (2 * s + 1) (0 : Vec n)).set s y)[i]? = some x := hx
  rw [List.getElem?_set] at hw' hx'
  by_cases hi : s = i
  · rw [if_pos hi, if_pos (by simp; omega)] at hw' hx'
    left
    rw [← Option.some.inj hw', ← Option.some.inj hx', h]
  · rw [if_neg hi, List.getElem?_replicate] at hw' hx'
    right
    split_ifs at hw' hx' with hl
    exact ⟨(Option.some.inj hw').symm, (Option.some.inj hx').symm⟩

theorem carries_put {f : List ℝ → FVal} {p q : Pli n} {neg : Bool} {j : ℕ} {v : FVal} {x : Vec n} {st : ℤ}
    (hc : Carries f p) (hv : f (List.ofFn x) = v ∨ (v = FVal.ofReal 0 ∧ x = 0))
    (h : p.put neg j v x st = .ok q) : Carries f q := by
  obtain ⟨_, rfl⟩ := Pli.put_eq h
  intro i w z hw hz
  simp only [List.getElem?_set] at hw hz
  split_ifs at hw hz with h1 h2
  · rw [← Option.some.inj hw, ← Option.some.inj hz]
    exact hv
  · exact hc i w z hw hz

theorem carries_pad {f : List ℝ → FVal} {p q : Pli n} {neg : Bool} {v : FVal} {x : Vec n} {st : ℤ} (hc : Carries f p)
    (hs : p.Shaped) (hv : f (List.ofFn x) = v ∨ (v = FVal.ofReal 0 ∧ x = 0)) (h : p.pad neg v x st = .ok q) :
    Carries f q := by
  obtain ⟨p', h', _, hget⟩ := Pli.pad_spec hs neg v x st
  rw [h'] at h
  obtain rfl := Except.ok.inj h
  intro i w z hw hz
  rw [(hget i).1] at hw
  rw [(hget i).2] at hz
  split_ifs at hw hz
  · rw [← Option.some.inj hw, ← Option.some.inj hz]
    exact hv
  · exact hc i w z hw hz

theorem searchLoop_carries {q : Profile n} {inner : Inner} {lfuel : ℕ} {neg : Bool} (hh : Inner.Honest inner)
    (hsp : Splits q.gp n q.k)
    (hc : n = 1 → ∀ c, q.sol.cands[0]? = some c → ∀ y, phenoV q.gp c.x = .ok y → q.f (List.ofFn y) = c.fvalue) (fuel : ℕ) :
    ∀ {i no : ℕ} {linit : Bool} {d : ℝ} {x : Vec n} {le le' : Pli n} {no' : ℕ}, le.Shaped → Carries q.f le →
    searchLoop q inner lfuel neg fuel i linit d x le no = .ok (some (le', no')) → Carries q.f le' := by
  induction fuel with
  | zero => intro i no linit d x le le' no' _ _ h; exact nomatch Except.ok.inj h
  | succ fuel ih =>
    intro i no linit d x le le' no' hs hca h
    rcases searchLoop_succ h with ⟨_, h⟩ | ⟨d1, x1, ev, r, _, hopt, h⟩
    · exact nomatch h
    rcases h with ⟨_, v, c, le1, hv, hcx, h1, h2⟩ | ⟨_, x2, bx, le1, hx2, hbx, h1, h2⟩
    · obtain ⟨rfl, _⟩ := Prod.mk.inj (Option.some.inj h2)
      exact carries_pad hca hs (hca _ v c hv hcx) h1
    · have hval := optimizeVpk_value hh hsp hc hopt hx2 hbx
      obtain ⟨l1, hs1⟩ : Carries q.f le1 ∧ le1.Shaped := by
        split_ifs at h1 with hcv
        · exact ⟨carries_put hca (Or.inl hval) h1, (Pli.put_like h1).shaped hs⟩
        · exact Except.ok.inj h1 ▸ ⟨hca, hs⟩
      rcases h2 with ⟨_, _, le2, h3, h4⟩ | ⟨_, ⟨_, h4⟩ | ⟨_, h4⟩⟩
      · obtain ⟨rfl, _⟩ := Prod.mk.inj (Option.some.inj h4)
        exact carries_pad l1 hs1 (Or.inl hval) h3
      · obtain ⟨rfl, _⟩ := Prod.mk.inj (Option.some.inj h4)
        exact l1
      · exact ih hs1 l1 h4

/-! ## Several fixed parameters -/

/-- Inserting in increasing order puts the values where they belong. -/
theorem insertAll_spec (ks : List ℕ) : ∀ {v x : List ℝ}, ks.Pairwise (· < ·) → (∀ k ∈ ks, k < x.length + ks.length) →
    (∀ k ∈ ks, k < v.length) → ∃ y, insertAll ks v x = .ok y ∧ y.length = x.length + ks.length ∧
      (∀ k ∈ ks, y[k]? = v[k]?) ∧ removeElements y ks.reverse = x := by
  induction ks using List.reverseRecOn with
  | nil => intro v x _ _ _; exact ⟨x, rfl, by simp, by simp, rfl⟩
  | append_singleton ks k ih =>
    intro v x hp hk hv
    rw [List.pairwise_append] at hp
    have hlt : ∀ j ∈ ks, j < k := fun j hj => hp.2.2 j hj k (by simp)
    have hk' : k < x.length + (ks.length + 1) := by simpa using hk k (by simp)
    obtain ⟨y, h1, h2, h3, h4⟩ := ih (v := v) (x := x) hp.1 (fun j hj => by have := hlt j hj; omega)
      (fun j hj => hv j (by simp [hj]))
    have hvk : k < v.length := hv k (by simp)
    have hky : k ≤ y.length := by omega
    refine ⟨addElement y k v[k], ?_, ?_, ?_, ?_⟩
    · unfold insertAll at h1 ⊢
      rw [List.foldlM_append, h1]
      show (idx v k >>= fun a => (pure (addElement y k a) : Out (List ℝ))) >>= _ = _
      rw [idx_eq_ok.2 (List.getElem?_eq_getElem hvk)]
      rfl
    · rw [addElement_length hky, h2]
      simp
      omega
    · intro j hj
      rw [List.mem_append, List.mem_singleton] at hj
      rw [getElem?_addElement hky]
      rcases hj with hj | rfl
      · rw [if_pos (hlt j hj)]
        exact h3 j hj
      · rw [if_neg (by omega), if_pos rfl, List.getElem?_eq_getElem hvk]
    · rw [List.reverse_append]
      show removeElements (removeElement (addElement y k v[k]) k) ks.reverse = x
      have : removeElement (addElement y k v[k]) k = y := by
        apply List.ext_getElem?
        intro i
        rw [getElem?_removeElement _ _ _ (by rw [addElement_length hky]; omega), getElem?_addElement hky,
          getElem?_addElement hky]
        split_ifs with a1 a2 a3
        · rfl
        · omega
        · omega
        · rfl
      rw [this]
      exact h4

theorem survivors_reverse {α : Type} (ks : List ℕ) (l : List α) : survivors ks.reverse l = survivors ks l := by
  unfold survivors
  simp

theorem removeElements_reverse {α : Type} {ks : List ℕ} (h : ks.Pairwise (· < ·)) (l : List α) :
    removeElements l ks.reverse = survivors ks l := by
  rw [removeElements_eq_survivors _ _ (List.pairwise_reverse.2 h), survivors_reverse]

theorem reduce_snd {c : Cand n} (kv : List (ℕ × ℝ)) : ∀ {l : List ℝ} {o : ℝ × List ℝ}, reduce c kv l = .ok o →
    o.2 = removeElements l (kv.map Prod.fst).reverse := by
  unfold reduce removeElements
  rw [← List.map_reverse]
  generalize kv.reverse = w
  generalize (0 : ℝ) = s
  induction w generalizing s with
  | nil => intro l o h; obtain rfl := Except.ok.inj h; rfl
  | cons a w ih =>
    intro l o h
    rw [List.foldlM_cons, Out.bind_eq_ok] at h
    obtain ⟨t, h1, h2⟩ := h
    rw [Out.bind_eq_ok] at h1
    obtain ⟨b, _, h1⟩ := h1
    obtain rfl := Except.ok.inj h1
    rw [ih _ h2]
    rfl

theorem removeElements_length {α : Type} (ks : List ℕ) : ∀ {l : List α}, ks.Pairwise (· > ·) → (∀ k ∈ ks, k < l.length) →
    (removeElements l ks).length + ks.length = l.length := by
  induction ks with
  | nil => intro l _ _; rfl
  | cons k ks ih =>
    intro l hp hk
    rw [List.pairwise_cons] at hp
    have hkl := hk k (by simp)
    have hl : (removeElement l k).length = l.length - 1 := by
      unfold removeElement
      rw [if_neg (by omega)]
      simp
      omega
    have := ih (l := removeElement l k) hp.2 (fun j hj => by have := hp.1 j hj; omega)
    show (removeElements (removeElement l k) ks).length + (ks.length + 1) = _
    omega

theorem reduce_ok {c : Cand n} {kv : List (ℕ × ℝ)} (hk : ∀ a ∈ kv, a.1 < n) (l : List ℝ) : ∃ o, reduce c kv l = .ok o := by
  unfold reduce
  have hk' : ∀ a ∈ kv.reverse, a.1 < n := fun a ha => hk a (List.mem_reverse.1 ha)
  generalize kv.reverse = w at hk'
  generalize (0 : ℝ) = s
  induction w generalizing s l with
  | nil => exact ⟨_, rfl⟩
  | cons a w ih =>
    rw [List.foldlM_cons, coord_eq_ok.2 ⟨hk' a (by simp), rfl⟩]
    exact ih _ (fun b hb => hk' b (by simp [hb])) _

theorem reduce_fst {c : Cand n} (kv : List (ℕ × ℝ)) : ∀ {l : List ℝ} {o : ℝ × List ℝ}, reduce c kv l = .ok o →
    (∀ a ∈ kv, ∀ x, coord c.x a.1 = .ok x → |x - a.2| ≤ o.1) ∧
    (o.1 = 0 ∨ ∃ a ∈ kv, ∃ x, coord c.x a.1 = .ok x ∧ o.1 = |x - a.2|) := by
  suffices h : ∀ (w : List (ℕ × ℝ)) (l : List ℝ) (s : ℝ) (o : ℝ × List ℝ), 0 ≤ s →
      w.foldlM (fun (q : ℝ × List ℝ) a => do
        let x ← coord c.x a.1
        pure (max q.1 |x - a.2|, removeElement q.2 a.1)) (s, l) = (.ok o : Out _) →
      s ≤ o.1 ∧ (∀ a ∈ w, ∀ x, coord c.x a.1 = .ok x → |x - a.2| ≤ o.1) ∧
      (o.1 = s ∨ ∃ a ∈ w, ∃ x, coord c.x a.1 = .ok x ∧ o.1 = |x - a.2|) by
    intro l o ho
    obtain ⟨_, h2, h3⟩ := h kv.reverse l 0 o le_rfl ho
    exact ⟨fun a ha => h2 a (List.mem_reverse.2 ha), h3.imp id (fun ⟨a, ha, hx⟩ => ⟨a, List.mem_reverse.1 ha, hx⟩)⟩
  intro w
  induction w with
  | nil =>
    intro l s o _ h
    obtain rfl := Except.ok.inj h
    exact ⟨le_rfl, by simp, Or.inl rfl⟩
  | cons b w ih =>
    intro l s o hs h
    rw [List.foldlM_cons, Out.bind_eq_ok] at h
    obtain ⟨t, h1, h2⟩ := h
    rw [Out.bind_eq_ok] at h1
    obtain ⟨x, hx, h1⟩ := h1
    obtain rfl := Except.ok.inj h1
    obtain ⟨i1, i2, i3⟩ := ih _ _ o (le_max_of_le_left hs) h2
    refine ⟨(le_max_left _ _).trans i1, ?_, ?_⟩
    · intro a ha y hy
      rcases List.mem_cons.1 ha with rfl | ha
      · rw [hx] at hy
        obtain rfl := Except.ok.inj hy
        exact (le_max_right _ _).trans i1
      · exact i2 a ha y hy
    · rcases i3 with i3 | ⟨a, ha, i3⟩
      · rcases max_choice s |x - b.2| with e | e
        · exact Or.inl (i3.trans e)
        · exact Or.inr ⟨b, by simp, x, hx, i3.trans e⟩
      · exact Or.inr ⟨a, by simp [ha], i3⟩

theorem point_spec (kv : List (ℕ × ℝ)) : ∀ {m : ℕ}, (kv.map Prod.fst).Nodup → (∀ a ∈ kv, a.1 < m) →
    ∃ w, point m kv = .ok w ∧ w.length = m ∧ ∀ a ∈ kv, w[a.1]? = some a.2 := by
  induction kv using List.reverseRecOn with
  | nil => intro m _ _; exact ⟨_, rfl, by simp, by simp⟩
  | append_singleton kv b ih =>
    intro m hn hk
    rw [List.map_append, List.nodup_append] at hn
    obtain ⟨w, h1, h2, h3⟩ := ih (m := m) hn.1 (fun a ha => hk a (by simp [ha]))
    have hb := hk b (by simp)
    refine ⟨w.set b.1 b.2, ?_, by simp [h2], ?_⟩
    · unfold point at h1 ⊢
      rw [List.foldlM_append, h1]
      simp only [Out.ok_bind, List.foldlM_cons, List.foldlM_nil, h2, if_pos hb]
      rfl
    · intro a ha
      rw [List.mem_append, List.mem_singleton] at ha
      rcases ha with ha | rfl
      · have hne : b.1 ≠ a.1 := fun e => hn.2.2 a.1 (List.mem_map.2 ⟨a, ha, rfl⟩) b.1 (by simp) e.symm
        rw [List.getElem?_set_ne hne]
        exact h3 a ha
      · rw [List.getElem?_set_self (by omega)]

end ErrStats

end Libcmaes
