import Verif.Lemmas.Basic
import Verif.Spec
/-!
# Merkle tree lemmas: the flat vector is the concatenation of the levels
-/

namespace Verif
open Spec

/-! ## Byte order -/

theorem bytesLe_antisymm : ∀ a b : Bytes, bytesLe a b = true → bytesLe b a = true → a = b
  | [], [], _, _ => rfl
  | [], _ :: _, _, h => by simp [bytesLe] at h
  | _ :: _, [], h, _ => by simp [bytesLe] at h
  | a :: as, b :: bs, h1, h2 => by
    unfold bytesLe at h1 h2
    by_cases hab : a.toNat < b.toNat
    · have : ¬ b.toNat < a.toNat := by omega
      simp [hab, this] at h2
    · by_cases hba : b.toNat < a.toNat
      · simp [hab, hba] at h1
      · simp [hab, hba] at h1 h2
        have e : a = b := UInt8.toNat_inj.1 (by omega)
        rw [e, bytesLe_antisymm as bs h1 h2]

theorem bytesLe_total : ∀ a b : Bytes, bytesLe a b = true ∨ bytesLe b a = true
  | [], _ => Or.inl (by simp [bytesLe])
  | _ :: _, [] => Or.inr (by simp [bytesLe])
  | a :: as, b :: bs => by
    unfold bytesLe
    by_cases hab : a.toNat < b.toNat
    · simp [hab]
    · by_cases hba : b.toNat < a.toNat
      · simp [hba]
      · simp [hab, hba, bytesLe_total as bs]

theorem innerString_comm (l r : Bytes) : innerString l r = innerString r l := by
  unfold innerString
  by_cases h1 : bytesLe l r = true
  · by_cases h2 : bytesLe r l = true
    · rw [bytesLe_antisymm l r h1 h2]
    · simp [h1, h2]
  · have h2 : bytesLe r l = true := (bytesLe_total l r).resolve_left h1
    simp [h1, h2]

theorem hashPair_eq (H : Bytes → Bytes) (l r : Bytes) : hashPair H true l r = H (innerString l r) := by
  unfold hashPair innerString intermediateHash
  simp only [if_true]
  split <;> rfl

theorem verifyLoop_cons (H : Bytes → Bytes) (p : Bytes) (ps : List Bytes) (c : Bytes) :
    verifyLoop H (p :: ps) c = verifyLoop H ps (H (innerString c p)) := by
  unfold innerString
  rw [verifyLoop]
  split <;> rfl

/-! ## Levels -/

/-- Next level of a sorted-hash tree. -/
def up (H : Bytes → Bytes) (l : List Bytes) : List Bytes :=
  pairLevel (fun a b => H (innerString a b)) l

theorem up_length (H : Bytes → Bytes) (l : List Bytes) : (up H l).length = (l.length + 1) / 2 :=
  pairLevel_length _ l

/-- Sibling of position `i`; an odd last node is its own sibling. -/
def sib (l : List Bytes) (i : Nat) : Option Bytes :=
  if i % 2 = 0 then (if i + 1 < l.length then l[i + 1]? else l[i]?) else l[i - 1]?

theorem pairLevel_get {α : Type} (g : Bytes → Bytes → α) (l : List Bytes) :
    ∀ (i : Nat), 2 * i < l.length →
    ∃ a b, l[2 * i]? = some a ∧ (if 2 * i + 1 < l.length then l[2 * i + 1]? else l[2 * i]?) = some b ∧
      (pairLevel g l)[i]? = some (g a b) := by
  induction l using pairLevel.induct with
  | case1 => intro i h; simp at h
  | case2 a =>
    intro i h
    have : i = 0 := by simp at h; omega
    subst this
    exact ⟨a, a, by simp, by simp, by simp [pairLevel]⟩
  | case3 a b rest ih =>
    intro i h
    cases i with
    | zero => exact ⟨a, b, by simp, by simp, by simp [pairLevel]⟩
    | succ j =>
      simp only [List.length_cons] at h
      obtain ⟨x, y, h1, h2, h3⟩ := ih j (by omega)
      refine ⟨x, y, ?_, ?_, ?_⟩
      · rw [show 2 * (j + 1) = 2 * j + 1 + 1 by omega]; simpa using h1
      · rw [show 2 * (j + 1) = 2 * j + 1 + 1 by omega]
        simp only [List.length_cons, List.getElem?_cons_succ]
        by_cases hlt : 2 * j + 1 < rest.length
        · rw [if_pos hlt] at h2; rw [if_pos (by omega)]; exact h2
        · rw [if_neg hlt] at h2; rw [if_neg (by omega)]; exact h2
      · simpa [pairLevel] using h3

/-- All levels from `l` upwards, concatenated. -/
def flat (H : Bytes → Bytes) (l : List Bytes) : List Bytes :=
  if _h : l.length ≤ 1 then l else l ++ flat H (up H l)
termination_by l.length
decreasing_by rw [up_length]; omega

/-- The top of the tree over `l`. -/
def top (H : Bytes → Bytes) (l : List Bytes) : Option Bytes :=
  if _h : l.length ≤ 1 then l.head? else top H (up H l)
termination_by l.length
decreasing_by rw [up_length]; omega

/-- Sibling path of position `i`. -/
def sibs (H : Bytes → Bytes) (l : List Bytes) (i : Nat) : List Bytes :=
  if _h : l.length ≤ 1 then []
  else
    match sib l i with
    | some x => x :: sibs H (up H l) (i / 2)
    | none => []
termination_by l.length
decreasing_by rw [up_length]; omega

theorem sib_some {l : List Bytes} {i : Nat} (h : i < l.length) : ∃ x, sib l i = some x := by
  unfold sib
  split
  · split
    · next h2 => exact ⟨_, List.getElem?_eq_getElem h2⟩
    · exact ⟨_, List.getElem?_eq_getElem h⟩
  · exact ⟨_, List.getElem?_eq_getElem (by omega)⟩

/-- The parent of position `i` is the hash of node and sibling. -/
theorem up_get (H : Bytes → Bytes) {l : List Bytes} {i : Nat} (h : i < l.length) {c x : Bytes}
    (hc : l[i]? = some c) (hx : sib l i = some x) :
    (up H l)[i / 2]? = some (H (innerString c x)) := by
  obtain ⟨a, b, ha, hb, hg⟩ := pairLevel_get (fun a b => H (innerString a b)) l (i / 2) (by omega)
  rw [show up H l = pairLevel (fun a b => H (innerString a b)) l from rfl, hg]
  unfold sib at hx
  by_cases he : i % 2 = 0
  · have h2 : 2 * (i / 2) = i := by omega
    rw [h2] at ha hb
    rw [if_pos he] at hx
    rw [hc] at ha; rw [hx] at hb
    simp only [Option.some.injEq] at ha hb
    rw [ha, hb]
  · have h2 : 2 * (i / 2) = i - 1 := by omega
    have h3 : i - 1 + 1 = i := by omega
    rw [h2] at ha hb
    rw [h3] at hb
    rw [if_pos h] at hb
    rw [if_neg he] at hx
    rw [hx] at ha; rw [hc] at hb
    simp only [Option.some.injEq] at ha hb
    rw [← ha, ← hb, innerString_comm]

/-- Completeness on levels: folding the siblings gives the top. -/
theorem verify_sibs (H : Bytes → Bytes) (l : List Bytes) (i : Nat) (c : Bytes)
    (h : l[i]? = some c) : top H l = some (verifyLoop H (sibs H l i) c) := by
  have hi : i < l.length := by
    by_contra hc
    rw [List.getElem?_eq_none (by omega)] at h
    simp at h
  rw [top, sibs]
  split
  · next hl =>
    have : i = 0 := by omega
    subst this
    rw [List.head?_eq_getElem?, h]; rfl
  · next hl =>
    obtain ⟨x, hx⟩ := sib_some hi
    simp only [hx]
    rw [verifyLoop_cons]
    exact verify_sibs H (up H l) (i / 2) _ (up_get H hi h hx)
termination_by l.length
decreasing_by rw [up_length]; omega

/-! ## The builder -/

theorem idx_ok {nodes : List Bytes} {i : Nat} {x : Bytes} (h : nodes[i]? = some x) :
    idx nodes i = .ok x := by simp [idx, h]

theorem buildLevel_eq (H : Bytes → Bytes) (pre l : List Bytes) :
    ∀ (n i : Nat) (post : List Bytes), i + n = (up H l).length →
    buildLevel H true pre.length l.length n i (pre ++ l ++ post) =
      .ok (pre ++ l ++ post ++ (up H l).drop i) := by
  intro n
  induction n with
  | zero =>
    intro i post h
    rw [buildLevel, List.drop_eq_nil_of_le (by omega), List.append_nil]
  | succ n ih =>
    intro i post h
    have hlen := up_length H l
    obtain ⟨a, b, ha, hb, hg⟩ := pairLevel_get (fun a b => H (innerString a b)) l i (by omega)
    have get : ∀ j x, l[j]? = some x → (pre ++ l ++ post)[pre.length + j]? = some x := by
      intro j x hj
      have hjl : j < l.length := by
        by_contra hc
        rw [List.getElem?_eq_none (by omega)] at hj
        simp at hj
      rw [List.append_assoc, List.getElem?_append_right (by omega), Nat.add_sub_cancel_left,
        List.getElem?_append_left hjl, hj]
    rw [buildLevel, idx_ok (get _ _ ha), ok_bind]
    have hr : rightChild (pre ++ l ++ post) pre.length l.length i = .ok b := by
      unfold rightChild
      split at hb
      · next hlt => rw [if_pos hlt]; exact idx_ok (get (2 * i + 1) b hb)
      · next hlt => rw [if_neg hlt]; exact idx_ok (get _ _ hb)
    rw [hr, ok_bind, hashPair_eq]
    have hd : (up H l).drop i = H (innerString a b) :: (up H l).drop (i + 1) := by
      have hil : i < (up H l).length := by omega
      rw [List.drop_eq_getElem_cons hil]
      congr 1
      have : (up H l)[i]? = some (H (innerString a b)) := hg
      rw [List.getElem?_eq_getElem hil] at this
      simpa using this
    have := ih (i + 1) (post ++ [H (innerString a b)]) (by omega)
    rw [← List.append_assoc] at this
    rw [this, hd]
    simp

theorem nextLevelLen_eq {n : Nat} : nextLevelLen n = if n ≤ 1 then 0 else (n + 1) / 2 := by
  unfold nextLevelLen
  by_cases h0 : n = 0
  · subst h0; simp
  · by_cases h1 : n = 1
    · subst h1; simp
    · rw [if_neg h1, if_neg (by omega)]

theorem buildLoop_eq (H : Bytes → Bytes) (l : List Bytes) : ∀ pre : List Bytes,
    buildLoop H true (nextLevelLen l.length) (pre.length + l.length) l.length pre.length (pre ++ l) =
      .ok (pre ++ flat H l) := by
  intro pre
  rw [buildLoop, flat]
  by_cases hl : l.length ≤ 1
  · rw [nextLevelLen_eq, if_pos hl]; simp [hl]
  · have hn : nextLevelLen l.length = (up H l).length := by
      rw [nextLevelLen_eq, if_neg hl, up_length]
    have hne : (up H l).length ≠ 0 := by rw [up_length]; omega
    have hb := buildLevel_eq H pre l (up H l).length 0 [] (by omega)
    simp only [List.append_nil, List.drop_zero] at hb
    rw [hn]
    simp only [hne, hl, dif_neg, not_false_eq_true]
    rw [hb, ok_bind]
    have ih := buildLoop_eq H (up H l) (pre ++ l)
    rw [List.length_append] at ih
    rw [ih, List.append_assoc]
termination_by l.length
decreasing_by rw [up_length]; omega

theorem new_eq (H : Bytes → Bytes) (items : List Bytes) :
    MerkleTree.new H items true =
      .ok { leafCount := items.length, nodes := flat H (items.map (leafHash H)) } := by
  have := buildLoop_eq H (items.map (leafHash H)) []
  simp only [List.length_map, List.length_nil, Nat.zero_add, List.nil_append] at this
  unfold MerkleTree.new
  rw [this, ok_bind, pure_eq_ok]

theorem flat_getLast (H : Bytes → Bytes) (l : List Bytes) : (flat H l).getLast? = top H l := by
  rw [flat, top]
  split
  · next h =>
    match l, h with
    | [], _ => rfl
    | [a], _ => rfl
    | a :: b :: r, h => simp at h
  · next h =>
    rw [List.getLast?_append, flat_getLast H (up H l)]
    have : top H (up H l) ≠ none := by
      have hlen : 0 < (up H l).length := by rw [up_length]; omega
      rw [verify_sibs H (up H l) 0 _ (List.getElem?_eq_getElem hlen)]
      simp
    cases ht : top H (up H l) with
    | none => exact absurd ht this
    | some x => rfl
termination_by l.length
decreasing_by rw [up_length]; omega

/-! ## Paths -/

/-- Path entries above a level, given the sibling found on it. -/
theorem findPath_eq (H : Bytes → Bytes) (l : List Bytes) :
    ∀ (pre : List Bytes) (i : Nat) (ls rs : Option Bytes) (path : List ProofEntry),
    i < l.length →
    ∃ entries, findPathLoop (pre ++ flat H l) l.length pre.length i ls rs path = .ok (path ++ entries) ∧
      proofOfPath entries = .ok ((if ls.isSome || rs.isSome then (ls.or rs).toList else []) ++ sibs H l i) := by
  intro pre i ls rs path hi
  have hc : l[i]? = some l[i] := List.getElem?_eq_getElem hi
  have hget : ∀ j x, l[j]? = some x → (pre ++ flat H l)[pre.length + j]? = some x := by
    intro j x hj
    have hjl : j < l.length := by
      by_contra hcc
      rw [List.getElem?_eq_none (by omega)] at hj
      simp at hj
    rw [List.getElem?_append_right (by omega), Nat.add_sub_cancel_left, flat]
    split
    · exact hj
    · rw [List.getElem?_append_left hjl, hj]
  obtain ⟨x, hx⟩ := sib_some hi
  -- the sibling read from the flat vector
  have hsib : ∃ l' r', (l'.isSome || r'.isSome) = true ∧ (l'.or r').toList = [x] ∧
      siblingsAt (pre ++ flat H l) l.length pre.length i = .ok (l', r') := by
    unfold siblingsAt
    unfold sib at hx
    by_cases he : i % 2 = 0
    · refine ⟨none, some x, rfl, rfl, ?_⟩
      rw [if_pos he] at hx ⊢
      split at hx
      · next hlt => rw [if_pos hlt, show pre.length + i + 1 = pre.length + (i + 1) by omega,
          idx_ok (hget (i + 1) x hx)]; rfl
      · next hlt => rw [if_neg hlt, idx_ok (hget i x hx)]; rfl
    · refine ⟨some x, none, rfl, rfl, ?_⟩
      rw [if_neg he] at hx ⊢
      have : idx (pre ++ flat H l) (pre.length + i - 1) = .ok x := by
        rw [show pre.length + i - 1 = pre.length + (i - 1) by omega]
        exact idx_ok (hget (i - 1) x hx)
      rw [this]; rfl
  obtain ⟨l', r', hsome, hlist, heq⟩ := hsib
  have hne : ¬ l.length = 0 := by omega
  -- entry pushed on this level
  obtain ⟨pushed, hpush, hpp⟩ : ∃ pushed : List ProofEntry,
      (if ls.isSome || rs.isSome then path ++ [ProofEntry.mk l[i] ls rs] else path) = path ++ pushed ∧
      ∀ rest out, proofOfPath rest = .ok out → proofOfPath (pushed ++ rest) =
        .ok ((if ls.isSome || rs.isSome then (ls.or rs).toList else []) ++ out) := by
    by_cases hs : (ls.isSome || rs.isSome) = true
    · refine ⟨[ProofEntry.mk l[i] ls rs], by rw [if_pos hs], ?_⟩
      intro rest out hrest
      simp only [List.singleton_append, proofOfPath]
      rw [if_pos hs]
      cases ls with
      | some a => simp [hrest]
      | none =>
        cases rs with
        | some b => simp [hrest]
        | none => simp at hs
    · refine ⟨[], by rw [if_neg hs, List.append_nil], ?_⟩
      intro rest out hrest
      rw [if_neg hs]; simpa using hrest
  by_cases hl : l.length ≤ 1
  · refine ⟨pushed, ?_, ?_⟩
    · rw [findPathLoop]
      simp only [hne, dif_neg, not_false_eq_true, if_pos hi]
      rw [idx_ok (hget _ _ hc), ok_bind, heq, ok_bind, hpush]
      rw [nextLevelLen_eq, if_pos hl, findPathLoop]
      simp
    · have := hpp [] [] rfl
      rw [List.append_nil] at this
      rw [this, sibs]; simp [hl]
  · obtain ⟨entries, h1, h2⟩ := findPath_eq H (up H l) (pre ++ l) (i / 2) l' r' (path ++ pushed)
      (by rw [up_length]; omega)
    refine ⟨pushed ++ entries, ?_, ?_⟩
    · rw [findPathLoop]
      simp only [hne, dif_neg, not_false_eq_true, if_pos hi]
      rw [idx_ok (hget _ _ hc), ok_bind, heq, ok_bind, hpush]
      have hn : nextLevelLen l.length = (up H l).length := by
        rw [nextLevelLen_eq, if_neg hl, up_length]
      have hflat : pre ++ flat H l = pre ++ l ++ flat H (up H l) := by
        conv_lhs => rw [flat]
        simp [hl]
      rw [List.length_append] at h1
      rw [hn, hflat, h1, List.append_assoc]
    · rw [if_pos hsome, hlist] at h2
      rw [hpp _ _ h2]
      congr 2
      conv_rhs => rw [sibs]
      simp [hl, hx]
termination_by l.length
decreasing_by rw [up_length]; omega

theorem getProof_eq (H : Bytes → Bytes) (items : List Bytes) {i : Nat} (hi : i < items.length) :
    getProof { leafCount := items.length, nodes := flat H (items.map (leafHash H)) } i =
      .ok (sibs H (items.map (leafHash H)) i) := by
  obtain ⟨entries, h1, h2⟩ := findPath_eq H (items.map (leafHash H)) [] i none none [] (by simpa using hi)
  simp only [List.length_map, List.length_nil, List.nil_append] at h1 h2
  unfold getProof MerkleTree.findPath
  rw [if_neg (by simpa using hi), h1]
  simp only [ok_bind, pure_bind']
  simpa using h2

end Verif
