import Verif.Lemmas.Merkle
/-!
# The tree builder in both modes

`Lemmas/Merkle.lean` treats trees with sorted hashes, the only ones the whitelist uses. Here the mode is arbitrary, and
paths are described entry by entry.
-/

namespace Verif

open Spec

/-- Next level. -/
def upB (H : Bytes → Bytes) (b : Bool) (l : List Bytes) : List Bytes := pairLevel (hashPair H b) l

theorem upB_length (H : Bytes → Bytes) (b : Bool) (l : List Bytes) : (upB H b l).length = (l.length + 1) / 2 :=
  pairLevel_length _ l

/-- All levels from `l` upwards. -/
def flatB (H : Bytes → Bytes) (b : Bool) (l : List Bytes) : List Bytes :=
  if _h : l.length ≤ 1 then l else l ++ flatB H b (upB H b l)
termination_by l.length
decreasing_by rw [upB_length]; omega

/-- The sibling of position `i` and the side it is on. -/
def sides (l : List Bytes) (i : Nat) : Option Bytes × Option Bytes :=
  if i % 2 = 0 then (none, if i + 1 < l.length then l[i + 1]? else l[i]?) else (l[i - 1]?, none)

/-- The path of position `i`, entry by entry. -/
def pathB (H : Bytes → Bytes) (b : Bool) (l : List Bytes) (i : Nat) : List ProofEntry :=
  if _h : l.length ≤ 1 then []
  else ⟨((upB H b l)[i / 2]?).getD [], (sides l i).1, (sides l i).2⟩ :: pathB H b (upB H b l) (i / 2)
termination_by l.length
decreasing_by rw [upB_length]; omega

theorem buildLevelB_eq (H : Bytes → Bytes) (m : Bool) (pre l : List Bytes) :
    ∀ (n i : Nat) (post : List Bytes), i + n = (upB H m l).length →
    buildLevel H m pre.length l.length n i (pre ++ l ++ post) =
      .ok (pre ++ l ++ post ++ (upB H m l).drop i) := by
  intro n
  induction n with
  | zero =>
    intro i post h
    rw [buildLevel, List.drop_eq_nil_of_le (by omega), List.append_nil]
  | succ n ih =>
    intro i post h
    have hlen := upB_length H m l
    obtain ⟨a, b, ha, hb, hg⟩ := pairLevel_get (hashPair H m) l i (by omega)
    have get : ∀ j x, l[j]? = some x → (pre ++ l ++ post)[pre.length + j]? = some x := by
      intro j x hj
      have hjl : j < l.length := by
        by_contra hc
        rw [List.getElem?_eq_none (by omega)] at hj
        simp at hj
      rw [List.append_assoc, List.getElem?_append_right (by omega), Nat.add_sub_cancel_left,
        List.getElem?_append_left hjl, hj]
    rw [buildLevel, idx_ok (get _ _ ha), ok_bind]
    have hr : rightChild (pre ++ l ++ post) pre.length l.length i = .ok b := by
      unfold rightChild
      split at hb
      · next hlt => rw [if_pos hlt]; exact idx_ok (get (2 * i + 1) b hb)
      · next hlt => rw [if_neg hlt]; exact idx_ok (get _ _ hb)
    rw [hr, ok_bind]
    have hd : (upB H m l).drop i = hashPair H m a b :: (upB H m l).drop (i + 1) := by
      have hil : i < (upB H m l).length := by omega
      rw [List.drop_eq_getElem_cons hil]
      congr 1
      have : (upB H m l)[i]? = some (hashPair H m a b) := hg
      rw [List.getElem?_eq_getElem hil] at this
      simpa using this
    have := ih (i + 1) (post ++ [hashPair H m a b]) (by omega)
    rw [← List.append_assoc] at this
    rw [this, hd]
    simp

theorem buildLoopB_eq (H : Bytes → Bytes) (m : Bool) (l : List Bytes) : ∀ pre : List Bytes,
    buildLoop H m (nextLevelLen l.length) (pre.length + l.length) l.length pre.length (pre ++ l) =
      .ok (pre ++ flatB H m l) := by
  intro pre
  rw [buildLoop, flatB]
  by_cases hl : l.length ≤ 1
  · rw [nextLevelLen_eq, if_pos hl]; simp [hl]
  · have hn : nextLevelLen l.length = (upB H m l).length := by
      rw [nextLevelLen_eq, if_neg hl, upB_length]
    have hne : (upB H m l).length ≠ 0 := by rw [upB_length]; omega
    have hb := buildLevelB_eq H m pre l (upB H m l).length 0 [] (by omega)
    simp only [List.append_nil, List.drop_zero] at hb
    rw [hn]
    simp only [hne, hl, dif_neg, not_false_eq_true]
    rw [hb, ok_bind]
    have ih := buildLoopB_eq H m (upB H m l) (pre ++ l)
    rw [List.length_append] at ih
    rw [ih, List.append_assoc]
termination_by l.length
decreasing_by rw [upB_length]; omega

theorem newB_eq (H : Bytes → Bytes) (m : Bool) (items : List Bytes) :
    MerkleTree.new H items m =
      .ok { leafCount := items.length, nodes := flatB H m (items.map (leafHash H)) } := by
  have := buildLoopB_eq H m (items.map (leafHash H)) []
  simp only [List.length_map, List.length_nil, Nat.zero_add, List.nil_append] at this
  unfold MerkleTree.new
  rw [this, ok_bind, pure_eq_ok]

theorem findPathB_eq (H : Bytes → Bytes) (m : Bool) (l : List Bytes) :
    ∀ (pre : List Bytes) (i : Nat) (c : Bytes) (ls rs : Option Bytes) (path : List ProofEntry), l[i]? = some c →
    findPathLoop (pre ++ flatB H m l) l.length pre.length i ls rs path =
      .ok (path ++ (if ls.isSome || rs.isSome then [⟨c, ls, rs⟩] else []) ++ pathB H m l i) := by
  intro pre i c ls rs path hc
  have hi : i < l.length := by
    by_contra hcc
    rw [List.getElem?_eq_none (by omega)] at hc
    simp at hc
  have hget : ∀ j x, l[j]? = some x → (pre ++ flatB H m l)[pre.length + j]? = some x := by
    intro j x hj
    have hjl : j < l.length := by
      by_contra hcc
      rw [List.getElem?_eq_none (by omega)] at hj
      simp at hj
    rw [List.getElem?_append_right (by omega), Nat.add_sub_cancel_left, flatB]
    split
    · exact hj
    · rw [List.getElem?_append_left hjl, hj]
  have hsib : siblingsAt (pre ++ flatB H m l) l.length pre.length i = .ok (sides l i) ∧
      ((sides l i).1.isSome || (sides l i).2.isSome) = true := by
    unfold siblingsAt sides
    by_cases he : i % 2 = 0
    · simp only [if_pos he]
      by_cases hlt : i + 1 < l.length
      · simp only [if_pos hlt, List.getElem?_eq_getElem hlt, Option.isSome_some, Option.isSome_none, Bool.or_true]
        rw [Nat.add_assoc, idx_ok (hget (i + 1) _ (List.getElem?_eq_getElem hlt))]
        exact ⟨rfl, trivial⟩
      · simp only [if_neg hlt, hc, Option.isSome_some, Bool.or_true]
        rw [idx_ok (hget i _ hc)]
        exact ⟨rfl, trivial⟩
    · have h1 : i - 1 < l.length := by omega
      simp only [if_neg he, List.getElem?_eq_getElem h1, Option.isSome_some, Bool.true_or]
      rw [show pre.length + i - 1 = pre.length + (i - 1) by omega,
        idx_ok (hget (i - 1) _ (List.getElem?_eq_getElem h1))]
      exact ⟨rfl, trivial⟩
  have hne : ¬ l.length = 0 := by omega
  have hpush : (if ls.isSome || rs.isSome then path ++ [ProofEntry.mk c ls rs] else path) =
      path ++ (if ls.isSome || rs.isSome then [⟨c, ls, rs⟩] else []) := by
    split <;> simp
  rw [findPathLoop, pathB]
  simp only [hne, dif_neg, not_false_eq_true, if_pos hi]
  rw [idx_ok (hget _ _ hc), ok_bind, hsib.1, ok_bind, hpush]
  by_cases hl : l.length ≤ 1
  · rw [nextLevelLen_eq, if_pos hl, findPathLoop, dif_pos hl]
    simp
  · have hn : nextLevelLen l.length = (upB H m l).length := by
      rw [nextLevelLen_eq, if_neg hl, upB_length]
    have hflat : pre ++ flatB H m l = pre ++ l ++ flatB H m (upB H m l) := by
      conv_lhs => rw [flatB]
      simp [hl]
    have h2 : i / 2 < (upB H m l).length := by rw [upB_length]; omega
    have ih := findPathB_eq H m (upB H m l) (pre ++ l) (i / 2) _ (sides l i).1 (sides l i).2
      (path ++ (if ls.isSome || rs.isSome then [⟨c, ls, rs⟩] else [])) (List.getElem?_eq_getElem h2)
    rw [List.length_append] at ih
    rw [hn, hflat, dif_neg hl]
    show findPathLoop _ _ _ _ (sides l i).1 (sides l i).2 _ = _
    rw [ih, if_pos hsib.2, List.getElem?_eq_getElem h2]
    simp
termination_by l.length
decreasing_by rw [upB_length]; omega

theorem pathB_length (H : Bytes → Bytes) (m : Bool) (l : List Bytes) (hl : l ≠ []) (i : Nat) :
    l.length ≤ 2 ^ (pathB H m l i).length ∧ ((pathB H m l i).length = 0 ∨ 2 ^ (pathB H m l i).length < 2 * l.length) := by
  have h0 : 0 < l.length := List.length_pos_iff.2 hl
  rw [pathB]
  split
  · rename_i h
    exact ⟨h, .inl rfl⟩
  · rename_i h
    have hu : (upB H m l).length = (l.length + 1) / 2 := upB_length H m l
    have hne : upB H m l ≠ [] := by
      intro e
      rw [e] at hu
      simp only [List.length_nil] at hu
      omega
    obtain ⟨h1, h2⟩ := pathB_length H m (upB H m l) hne (i / 2)
    rw [List.length_cons, Nat.pow_succ]
    rw [hu] at h1 h2
    refine ⟨by omega, .inr ?_⟩
    rcases h2 with h2 | h2
    · rw [h2]; omega
    · cases hk : (pathB H m (upB H m l) (i / 2)).length with
      | zero => omega
      | succ k => rw [hk, Nat.pow_succ] at h2; rw [Nat.pow_succ]; omega
termination_by l.length
decreasing_by rw [upB_length]; omega

theorem flatB_length (H : Bytes → Bytes) (m : Bool) (l : List Bytes) (i : Nat) :
    l.length ≤ (flatB H m l).length ∧ (flatB H m l).length ≤ 2 * l.length + (pathB H m l i).length := by
  rw [flatB, pathB]
  split
  · exact ⟨Nat.le_refl _, by omega⟩
  · have hu : (upB H m l).length = (l.length + 1) / 2 := upB_length H m l
    obtain ⟨h1, h2⟩ := flatB_length H m (upB H m l) (i / 2)
    rw [List.length_append, List.length_cons]
    omega
termination_by l.length
decreasing_by rw [upB_length]; omega

theorem upB_true (H : Bytes → Bytes) (l : List Bytes) : upB H true l = up H l := by
  unfold upB up
  congr 1
  funext a b
  exact hashPair_eq H a b

theorem sibs_length (H : Bytes → Bytes) (l : List Bytes) (i : Nat) (hi : i < l.length) :
    (sibs H l i).length = (pathB H true l i).length := by
  rw [sibs, pathB]
  split
  · rfl
  · obtain ⟨x, hx⟩ := sib_some hi
    have := sibs_length H (up H l) (i / 2) (by rw [up_length]; omega)
    simp only [hx, List.length_cons]
    rw [this, upB_true]
termination_by l.length
decreasing_by rw [up_length]; omega

end Verif
