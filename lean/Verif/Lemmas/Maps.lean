import Verif.Spec
import Verif.Lemmas.Basic
/-!
# Finite maps and sums over them
-/

namespace Verif

variable {K V : Type} [DecidableEq K]

theorem upd_self (f : K → V) (k : K) (v : V) : upd f k v k = v := by simp [upd]

theorem upd_other (f : K → V) {k x : K} (v : V) (h : x ≠ k) : upd f k v x = f x := by simp [upd, h]

theorem upd_apply (f : K → V) (k x : K) (v : V) : upd f k v x = if x = k then v else f x := rfl

namespace AMap

/-- Keys of a map. -/
def keys (m : AMap K V) : List K := m.map Prod.fst

theorem get?_mem {m : AMap K V} {k : K} {v : V} (h : get? m k = some v) : (k, v) ∈ m := by
  induction m with
  | nil => simp [get?] at h
  | cons x m ih =>
    obtain ⟨k', v'⟩ := x
    simp only [get?] at h
    split at h
    · next hk => subst hk; simp at h; subst h; simp
    · exact List.mem_cons_of_mem _ (ih h)

theorem mem_get? {m : AMap K V} {k : K} {v : V} (hn : (keys m).Nodup) (h : (k, v) ∈ m) :
    get? m k = some v := by
  induction m with
  | nil => simp at h
  | cons x m ih =>
    obtain ⟨k', v'⟩ := x
    simp only [keys, List.map_cons, List.nodup_cons] at hn
    simp only [get?]
    rcases List.mem_cons.1 h with h | h
    · cases h; simp
    · split
      · next hk =>
        subst hk
        exact absurd (List.mem_map.2 ⟨(k', v), h, rfl⟩) hn.1
      · exact ih hn.2 h

theorem get?_none_iff {m : AMap K V} {k : K} : get? m k = none ↔ k ∉ keys m := by
  induction m with
  | nil => simp [get?, keys]
  | cons x m ih =>
    obtain ⟨k', v'⟩ := x
    simp only [get?, keys, List.map_cons, List.mem_cons, not_or]
    split
    · next h => subst h; simp
    · next h => rw [ih]; exact ⟨fun h' => ⟨fun h2 => h h2.symm, h'⟩, fun h' => h'.2⟩

theorem get?_set (m : AMap K V) (k k' : K) (v : V) :
    get? (set m k v) k' = if k' = k then some v else get? m k' := by
  induction m with
  | nil =>
    simp only [set, get?]
    by_cases h : k' = k
    · simp [h]
    · simp [h, Ne.symm h]
  | cons x m ih =>
    obtain ⟨k₀, v₀⟩ := x
    simp only [set]
    split
    · next h =>
      subst h
      simp only [get?]
      by_cases h : k' = k₀
      · simp [h]
      · simp [h, Ne.symm h]
    · next h =>
      simp only [get?, ih]
      by_cases h' : k₀ = k'
      · subst h'; simp [h]
      · simp [h']

theorem keys_set_of_some {m : AMap K V} {k : K} {v₀ v : V} (h : get? m k = some v₀) :
    keys (set m k v) = keys m := by
  induction m with
  | nil => simp [get?] at h
  | cons x m ih =>
    obtain ⟨k', v'⟩ := x
    simp only [get?] at h
    simp only [set]
    split at h
    · next hk => subst hk; simp [keys]
    · next hk => rw [if_neg hk]; simp only [keys, List.map_cons] at *; rw [ih h]

theorem keys_set_of_none {m : AMap K V} {k : K} {v : V} (h : get? m k = none) :
    keys (set m k v) = keys m ++ [k] := by
  induction m with
  | nil => simp [set, keys]
  | cons x m ih =>
    obtain ⟨k', v'⟩ := x
    simp only [get?] at h
    simp only [set]
    split at h
    · simp at h
    · next hk => rw [if_neg hk]; simp only [keys, List.map_cons, List.cons_append] at *; rw [ih h]

theorem nodup_set {m : AMap K V} {k : K} {v : V} (hn : (keys m).Nodup) : (keys (set m k v)).Nodup := by
  cases h : get? m k with
  | some v₀ => rw [keys_set_of_some h]; exact hn
  | none =>
    rw [keys_set_of_none h, List.nodup_append]
    refine ⟨hn, by simp, ?_⟩
    intro a ha b hb hab
    simp at hb
    subst hb; subst hab
    exact (get?_none_iff.1 h) ha

theorem keys_erase_sublist (m : AMap K V) (k : K) : (keys (erase m k)).Sublist (keys m) := by
  induction m with
  | nil => simp [erase]
  | cons x m ih =>
    obtain ⟨k', v'⟩ := x
    simp only [erase]
    split
    · simp only [keys, List.map_cons]; exact List.sublist_cons_self _ _
    · simp only [keys, List.map_cons] at *; exact List.Sublist.cons_cons _ ih

theorem nodup_erase {m : AMap K V} {k : K} (hn : (keys m).Nodup) : (keys (erase m k)).Nodup :=
  List.Sublist.nodup (keys_erase_sublist m k) hn

theorem erase_sublist (m : AMap K V) (k : K) : (erase m k).Sublist m := by
  induction m with
  | nil => simp [erase]
  | cons x m ih =>
    obtain ⟨k', v'⟩ := x
    simp only [erase]
    split
    · exact List.sublist_cons_self _ _
    · exact List.Sublist.cons_cons _ ih

theorem get?_erase {m : AMap K V} (hn : (keys m).Nodup) (k k' : K) :
    get? (erase m k) k' = if k' = k then none else get? m k' := by
  induction m with
  | nil => simp [erase, get?]
  | cons x m ih =>
    obtain ⟨k₀, v₀⟩ := x
    simp only [keys, List.map_cons, List.nodup_cons] at hn
    simp only [erase]
    split
    · next h =>
      subst h
      by_cases h' : k' = k₀
      · subst h'; rw [if_pos rfl]; exact get?_none_iff.2 hn.1
      · rw [if_neg h']; simp [get?, Ne.symm h']
    · next h =>
      simp only [get?, ih hn.2]
      by_cases h' : k₀ = k'
      · subst h'; simp [h]
      · simp [h']

theorem mem_set {m : AMap K V} {k : K} {v : V} {x : K × V} (h : x ∈ set m k v) :
    x = (k, v) ∨ x ∈ m := by
  induction m with
  | nil => simp [set] at h; exact Or.inl h
  | cons y m ih =>
    obtain ⟨k', v'⟩ := y
    simp only [set] at h
    split at h
    · rcases List.mem_cons.1 h with h | h
      · exact Or.inl h
      · exact Or.inr (List.mem_cons_of_mem _ h)
    · rcases List.mem_cons.1 h with h | h
      · exact Or.inr (h ▸ List.mem_cons_self)
      · rcases ih h with h | h
        · exact Or.inl h
        · exact Or.inr (List.mem_cons_of_mem _ h)

/-- Sum of `g` over the values. -/
def sumBy (g : V → Nat) (m : AMap K V) : Nat := (m.map (fun x => g x.2)).sum

omit [DecidableEq K] in
theorem sumBy_cons (g : V → Nat) (x : K × V) (m : AMap K V) :
    sumBy g (x :: m) = g x.2 + sumBy g m := by simp [sumBy]

theorem sumBy_set_some {g : V → Nat} {m : AMap K V} {k : K} {v v' : V} (h : get? m k = some v) :
    sumBy g (set m k v') + g v = sumBy g m + g v' := by
  induction m with
  | nil => simp [get?] at h
  | cons x m ih =>
    obtain ⟨k', v₀⟩ := x
    simp only [get?] at h
    simp only [set]
    split at h
    · next hk => simp at h; subst h; rw [if_pos hk]; simp only [sumBy_cons]; omega
    · next hk => rw [if_neg hk]; simp only [sumBy_cons]; have := ih h; omega

theorem sumBy_set_none {g : V → Nat} {m : AMap K V} {k : K} {v' : V} (h : get? m k = none) :
    sumBy g (set m k v') = sumBy g m + g v' := by
  induction m with
  | nil => simp [set, sumBy]
  | cons x m ih =>
    obtain ⟨k', v₀⟩ := x
    simp only [get?] at h
    simp only [set]
    split at h
    · simp at h
    · next hk => rw [if_neg hk]; simp only [sumBy_cons]; have := ih h; omega

theorem sumBy_erase {g : V → Nat} {m : AMap K V} {k : K} {v : V} (h : get? m k = some v) :
    sumBy g (erase m k) + g v = sumBy g m := by
  induction m with
  | nil => simp [get?] at h
  | cons x m ih =>
    obtain ⟨k', v₀⟩ := x
    simp only [get?] at h
    simp only [erase]
    split at h
    · next hk => simp at h; subst h; rw [if_pos hk]; simp only [sumBy_cons]; omega
    · next hk => rw [if_neg hk]; simp only [sumBy_cons]; have := ih h; omega

omit [DecidableEq K] in
theorem sumBy_congr {g g' : V → Nat} {m : AMap K V} (h : ∀ x ∈ m, g x.2 = g' x.2) :
    sumBy g m = sumBy g' m := by
  unfold sumBy
  congr 1
  exact List.map_congr_left h

omit [DecidableEq K] in
theorem sumBy_le {g g' : V → Nat} {m : AMap K V} (h : ∀ x ∈ m, g x.2 ≤ g' x.2) :
    sumBy g m ≤ sumBy g' m := by
  induction m with
  | nil => simp [sumBy]
  | cons x m ih =>
    simp only [sumBy_cons]
    have h1 := h x (by simp)
    have h2 := ih (fun y hy => h y (by simp [hy]))
    omega

omit [DecidableEq K] in
theorem sumBy_add (g g' : V → Nat) (m : AMap K V) :
    sumBy (fun v => g v + g' v) m = sumBy g m + sumBy g' m := by
  induction m with
  | nil => simp [sumBy]
  | cons x m ih => simp only [sumBy_cons, ih]; omega

omit [DecidableEq K] in
theorem le_sumBy {g : V → Nat} {m : AMap K V} {x : K × V} (h : x ∈ m) : g x.2 ≤ sumBy g m := by
  induction m with
  | nil => simp at h
  | cons y m ih =>
    simp only [sumBy_cons]
    rcases List.mem_cons.1 h with h | h
    · subst h; omega
    · have := ih h; omega

omit [DecidableEq K] in
/-- `Σ ⌊R·g/T⌋ ≤ ⌊R·Σg/T⌋`. -/
theorem sumBy_floor (g : V → Nat) (R T : Nat) (m : AMap K V) :
    sumBy (fun v => R * g v / T) m ≤ R * sumBy g m / T :=
  sum_floor_le (fun x : K × V => g x.2) R T m

end AMap

/-! ## Sums over a list with one element replaced -/

/-- Sum of `g` over a list. -/
def lsum {α : Type} (g : α → Nat) (l : List α) : Nat := (l.map g).sum

theorem lsum_cons {α : Type} (g : α → Nat) (x : α) (l : List α) : lsum g (x :: l) = g x + lsum g l := by
  simp [lsum]

theorem lsum_nil {α : Type} (g : α → Nat) : lsum g [] = 0 := rfl

theorem lsum_set {α : Type} {g : α → Nat} {l : List α} {i : Nat} {x x' : α} (h : l[i]? = some x) :
    lsum g (l.set i x') + g x = lsum g l + g x' := by
  induction l generalizing i with
  | nil => simp at h
  | cons y l ih =>
    cases i with
    | zero => simp at h; subst h; simp only [List.set_cons_zero, lsum_cons]; omega
    | succ i =>
      simp only [List.getElem?_cons_succ] at h
      simp only [List.set_cons_succ, lsum_cons]
      have := ih h
      omega

theorem lsum_set_same {α : Type} {g : α → Nat} {l : List α} {i : Nat} {x x' : α} (h : l[i]? = some x)
    (hg : g x' = g x) : lsum g (l.set i x') = lsum g l := by
  have := lsum_set (g := g) (x' := x') h
  omega

theorem le_lsum {α : Type} {g : α → Nat} {l : List α} {i : Nat} {x : α} (h : l[i]? = some x) :
    g x ≤ lsum g l := by
  induction l generalizing i with
  | nil => simp at h
  | cons y l ih =>
    cases i with
    | zero => simp at h; subst h; simp only [lsum_cons]; omega
    | succ i =>
      simp only [List.getElem?_cons_succ] at h
      simp only [lsum_cons]
      have := ih h
      omega

theorem lsum_le {α : Type} {g g' : α → Nat} {l : List α} (h : ∀ (i : Nat) x, l[i]? = some x → g x ≤ g' x) :
    lsum g l ≤ lsum g' l := by
  induction l with
  | nil => simp [lsum]
  | cons x l ih =>
    simp only [lsum_cons]
    have h1 := h 0 x (by simp)
    have h2 := ih (fun i y hy => h (i + 1) y (by simpa using hy))
    omega

theorem lsum_congr {α : Type} {g g' : α → Nat} {l : List α} (h : ∀ (i : Nat) x, l[i]? = some x → g x = g' x) :
    lsum g l = lsum g' l :=
  Nat.le_antisymm (lsum_le fun i x hx => Nat.le_of_eq (h i x hx))
    (lsum_le fun i x hx => Nat.le_of_eq (h i x hx).symm)

theorem lsum_add {α : Type} (g g' : α → Nat) (l : List α) :
    lsum (fun v => g v + g' v) l = lsum g l + lsum g' l := by
  induction l with
  | nil => simp [lsum]
  | cons x l ih => simp only [lsum_cons, ih]; omega

theorem lsum_floor {α : Type} (g : α → Nat) (R T : Nat) (l : List α) :
    lsum (fun v => R * g v / T) l ≤ R * lsum g l / T := sum_floor_le g R T l

theorem lsum_zero {α : Type} {g : α → Nat} {l : List α} (h : ∀ (i : Nat) x, l[i]? = some x → g x = 0) :
    lsum g l = 0 := by
  induction l with
  | nil => rfl
  | cons x l ih =>
    rw [lsum_cons, h 0 x (by simp), ih (fun i y hy => h (i + 1) y (by simpa using hy))]

/-! ## Sums over the escrows of one registry of one presale -/

/-- Restriction of `f` to the escrows of presale `a` in registry `i`. -/
def only (a : Addr) (i : Nat) (f : Escrow → Nat) (e : Escrow) : Nat :=
  if e.presale = a ∧ e.registryIndex = i then f e else 0

theorem only_hit {a : Addr} {i : Nat} {f : Escrow → Nat} {e : Escrow} (h : e.presale = a)
    (hi : e.registryIndex = i) : only a i f e = f e := by simp [only, h, hi]

theorem only_miss_idx {a : Addr} {i : Nat} {f : Escrow → Nat} {e : Escrow} (hi : e.registryIndex ≠ i) :
    only a i f e = 0 := by simp [only, hi]

theorem only_miss {a : Addr} {i : Nat} {f : Escrow → Nat} {e : Escrow} (h : e.presale ≠ a) :
    only a i f e = 0 := by simp [only, h]

/-- Sum over the escrows of presale `a` in registry `i`. -/
abbrev esum (es : AMap Addr Escrow) (a : Addr) (i : Nat) (f : Escrow → Nat) : Nat :=
  AMap.sumBy (only a i f) es

theorem esum_eq (es : AMap Addr Escrow) (a : Addr) (i : Nat) (f : Escrow → Nat) :
    Spec.escrowSum es a i f = esum es a i f := rfl

theorem esum_le {es : AMap Addr Escrow} {a : Addr} {i : Nat} {f g : Escrow → Nat}
    (h : ∀ x ∈ es, x.2.presale = a → x.2.registryIndex = i → f x.2 ≤ g x.2) :
    esum es a i f ≤ esum es a i g := by
  apply AMap.sumBy_le
  intro x hx
  unfold only
  split
  · next hc => exact h x hx hc.1 hc.2
  · exact Nat.le_refl _

theorem esum_congr {es : AMap Addr Escrow} {a : Addr} {i : Nat} {f g : Escrow → Nat}
    (h : ∀ x ∈ es, x.2.presale = a → x.2.registryIndex = i → f x.2 = g x.2) :
    esum es a i f = esum es a i g := by
  apply AMap.sumBy_congr
  intro x hx
  unfold only
  split
  · next hc => exact h x hx hc.1 hc.2
  · rfl

theorem esum_zero {es : AMap Addr Escrow} {a : Addr} {i : Nat} {f : Escrow → Nat}
    (h : ∀ x ∈ es, x.2.presale = a → x.2.registryIndex = i → f x.2 = 0) : esum es a i f = 0 := by
  induction es with
  | nil => rfl
  | cons x l ih =>
    have h1 : only a i f x.2 = 0 := by
      unfold only
      split
      · next hc => exact h x (by simp) hc.1 hc.2
      · rfl
    have h2 := ih (fun y hy => h y (by simp [hy]))
    unfold esum at *
    rw [AMap.sumBy_cons, h1, h2]

theorem esum_add (es : AMap Addr Escrow) (a : Addr) (i : Nat) (f g : Escrow → Nat) :
    esum es a i (fun e => f e + g e) = esum es a i f + esum es a i g := by
  rw [← AMap.sumBy_add]
  apply AMap.sumBy_congr
  intro x _
  unfold only
  split <;> simp

theorem esum_floor (es : AMap Addr Escrow) (a : Addr) (i : Nat) (f : Escrow → Nat) (R T : Nat) :
    esum es a i (fun e => R * f e / T) ≤ R * esum es a i f / T := by
  refine Nat.le_trans ?_ (AMap.sumBy_floor (only a i f) R T es)
  apply AMap.sumBy_le
  intro x _
  unfold only
  split
  · exact Nat.le_refl _
  · exact Nat.zero_le _

theorem le_esum {es : AMap Addr Escrow} {a : Addr} {i : Nat} {f : Escrow → Nat} {x : Addr × Escrow}
    (h : x ∈ es) (ha : x.2.presale = a) (hi : x.2.registryIndex = i) : f x.2 ≤ esum es a i f := by
  have := AMap.le_sumBy (g := only a i f) h
  rwa [only_hit ha hi] at this

end Verif
