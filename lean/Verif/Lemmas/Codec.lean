import Verif.Model.Codec
/-!
# Laws of the byte formats

Every format used is `Lawful`: what is written is read back, what is read has a representation, and
reading depends on the bytes read only. Formats of fixed size have `Sized n`; formats in which every
bit pattern is a value have `Total`.
-/

namespace Verif

namespace Codec

variable {α β : Type}

/-- The laws of a byte format. -/
structure Lawful (c : Codec α) : Prop where
  dec_enc : ∀ a rest, c.valid a → c.dec (c.enc a ++ rest) = some (a, rest)
  sound : ∀ bs a rest, c.dec bs = some (a, rest) → c.valid a
  prefix' : ∀ bs a rest, c.dec bs = some (a, rest) →
    ∃ used, bs = used ++ rest ∧ ∀ rest', c.dec (used ++ rest') = some (a, rest')

/-- Every value takes `n` bytes, when written and when read. -/
structure Sized (c : Codec α) (n : Nat) : Prop where
  enc : ∀ a, c.valid a → (c.enc a).length = n
  dec : ∀ bs a rest, c.dec bs = some (a, rest) → bs.length = n + rest.length

/-- Every string of `n` bytes is a value. -/
def Total (c : Codec α) (n : Nat) : Prop := ∀ bs, n ≤ bs.length → (c.dec bs).isSome = true

theorem raw_lawful (n : Nat) : (raw n).Lawful where
  dec_enc a rest h := by
    have h' : a.length = n := h
    subst h'
    simp [raw]
  sound bs a rest h := by
    simp only [raw] at h ⊢
    split at h
    · simp only [Option.some.injEq, Prod.mk.injEq] at h
      rw [← h.1, List.length_take]; omega
    · cases h
  prefix' bs a rest h := by
    simp only [raw] at h ⊢
    split at h
    · rename_i hn
      simp only [Option.some.injEq, Prod.mk.injEq] at h
      refine ⟨bs.take n, ?_, fun rest' => ?_⟩
      · rw [← h.2, List.take_append_drop]
      · have hl : (bs.take n).length = n := by rw [List.length_take]; omega
        rw [if_pos (by rw [List.length_append]; omega), ← h.1]
        refine congrArg some (Prod.ext ?_ ?_)
        · exact List.take_left' hl
        · exact List.drop_left' hl
    · cases h

theorem raw_sized (n : Nat) : (raw n).Sized n where
  enc a h := h
  dec bs a rest h := by
    simp only [raw] at h
    split at h
    · simp only [Option.some.injEq, Prod.mk.injEq] at h
      rw [← h.2, List.length_drop]; omega
    · cases h

theorem raw_total (n : Nat) : (raw n).Total n := fun bs h => by simp [raw, h]

theorem map_lawful {c : Codec α} (L : c.Lawful) {f : α → β} {g : β → α} {ok : β → Prop}
    (h1 : ∀ b, ok b → f (g b) = b ∧ c.valid (g b)) (h2 : ∀ a, c.valid a → ok (f a)) :
    (c.map f g ok).Lawful where
  dec_enc b rest h := by
    have h' := h1 b h
    simp only [map, L.dec_enc _ _ h'.2, h'.1]
  sound bs b rest h := by
    simp only [map] at h ⊢
    split at h
    · rename_i a r hd
      simp only [Option.some.injEq, Prod.mk.injEq] at h
      rw [← h.1]
      exact h2 _ (L.sound _ _ _ hd)
    · cases h
  prefix' bs b rest h := by
    simp only [map] at h ⊢
    split at h
    · rename_i a r hd
      simp only [Option.some.injEq, Prod.mk.injEq] at h
      obtain ⟨u, hu, hr⟩ := L.prefix' _ _ _ hd
      refine ⟨u, by rw [← h.2]; exact hu, fun rest' => ?_⟩
      rw [hr rest', ← h.1]
    · cases h

theorem map_sized {c : Codec α} {n : Nat} (S : c.Sized n) {f : α → β} {g : β → α} {ok : β → Prop}
    (h1 : ∀ b, ok b → c.valid (g b)) : (c.map f g ok).Sized n where
  enc b h := S.enc _ (h1 b h)
  dec bs b rest h := by
    simp only [map] at h
    split at h
    · rename_i a r hd
      simp only [Option.some.injEq, Prod.mk.injEq] at h
      rw [← h.2]; exact S.dec _ _ _ hd
    · cases h

theorem map_total {c : Codec α} {n : Nat} (T : c.Total n) {f : α → β} {g : β → α} {ok : β → Prop} :
    (c.map f g ok).Total n := fun bs h => by
  have := T bs h
  simp only [map]
  cases hd : c.dec bs with
  | none => rw [hd] at this; cases this
  | some x => rfl

theorem leBytes_length (n v : Nat) : (leBytes n v).length = n := by
  induction n generalizing v with
  | zero => rfl
  | succ n ih => simp [leBytes, ih]

theorem leNat_leBytes (n v : Nat) (h : v < 256 ^ n) : leNat (leBytes n v) = v := by
  induction n generalizing v with
  | zero => simp at h; simp [leBytes, leNat, h]
  | succ n ih =>
    have hd : v / 256 < 256 ^ n := by
      rw [Nat.pow_succ] at h
      exact Nat.div_lt_of_lt_mul (by omega)
    simp only [leBytes, leNat, ih _ hd, UInt8.toNat_ofNat']
    omega

theorem leNat_lt (bs : Bytes) : leNat bs < 256 ^ bs.length := by
  induction bs with
  | nil => simp [leNat]
  | cons b bs ih =>
    have hb : b.toNat < 256 := b.toNat_lt
    simp only [leNat, List.length_cons, Nat.pow_succ]
    omega

theorem leBytes_leNat (bs : Bytes) : leBytes bs.length (leNat bs) = bs := by
  induction bs with
  | nil => rfl
  | cons b bs ih =>
    have hb : b.toNat < 256 := b.toNat_lt
    simp only [leNat, List.length_cons, leBytes]
    have e1 : (b.toNat + 256 * leNat bs) % 256 = b.toNat := by omega
    have e2 : (b.toNat + 256 * leNat bs) / 256 = leNat bs := by omega
    rw [e1, e2, ih]
    simp

theorem uint_lawful (n : Nat) : (uint n).Lawful :=
  map_lawful (raw_lawful n) (fun v h => ⟨leNat_leBytes n v h, leBytes_length n v⟩)
    (fun b h => by
      have h' : b.length = n := h
      rw [← h']; exact leNat_lt b)

theorem uint_sized (n : Nat) : (uint n).Sized n :=
  map_sized (raw_sized n) (fun v _ => leBytes_length n v)

theorem uint_total (n : Nat) : (uint n).Total n := map_total (raw_total n)

theorem pad_lawful (n : Nat) : (pad n).Lawful :=
  map_lawful (raw_lawful n) (fun _ _ => ⟨rfl, List.length_replicate⟩) (fun _ _ => trivial)

theorem pad_sized (n : Nat) : (pad n).Sized n :=
  map_sized (raw_sized n) (fun _ _ => List.length_replicate)

theorem pad_total (n : Nat) : (pad n).Total n := map_total (raw_total n)

theorem nothing_lawful : nothing.Lawful where
  dec_enc a rest _ := by simp [nothing]
  sound _ _ _ _ := trivial
  prefix' bs a rest h := by
    simp only [nothing, Option.some.injEq, Prod.mk.injEq, true_and] at h ⊢
    exact ⟨[], by simp [h], fun _ => by simp⟩

theorem pair_lawful {c : Codec α} {d : Codec β} (L : c.Lawful) (M : d.Lawful) :
    (c.pair d).Lawful where
  dec_enc x rest h := by
    simp only [pair, List.append_assoc, L.dec_enc _ _ h.1, M.dec_enc _ _ h.2]
  sound bs x rest h := by
    simp only [pair] at h ⊢
    split at h
    · cases h
    · rename_i a r hd
      split at h
      · cases h
      · rename_i b r' hd'
        simp only [Option.some.injEq, Prod.mk.injEq] at h
        obtain ⟨e, -⟩ := h
        subst e
        exact ⟨L.sound _ _ _ hd, M.sound _ _ _ hd'⟩
  prefix' bs x rest h := by
    simp only [pair] at h ⊢
    split at h
    · cases h
    · rename_i a r hd
      split at h
      · cases h
      · rename_i b r' hd'
        simp only [Option.some.injEq, Prod.mk.injEq] at h
        obtain ⟨e, e'⟩ := h
        subst e e'
        obtain ⟨u, hu, hr⟩ := L.prefix' _ _ _ hd
        obtain ⟨v, hv, hs⟩ := M.prefix' _ _ _ hd'
        refine ⟨u ++ v, by rw [hu, hv, List.append_assoc], fun rest' => ?_⟩
        simp only [List.append_assoc, hr, hs]

theorem pair_sized {c : Codec α} {d : Codec β} {m n : Nat} (S : c.Sized m) (T : d.Sized n) :
    (c.pair d).Sized (m + n) where
  enc x h := by simp only [pair, List.length_append, S.enc _ h.1, T.enc _ h.2]
  dec bs x rest h := by
    simp only [pair] at h
    split at h
    · cases h
    · rename_i a r hd
      split at h
      · cases h
      · rename_i b r' hd'
        simp only [Option.some.injEq, Prod.mk.injEq] at h
        have := S.dec _ _ _ hd
        have := T.dec _ _ _ hd'
        rw [← h.2]; omega

theorem pair_total {c : Codec α} {d : Codec β} {m n : Nat} (S : c.Sized m) (T : c.Total m)
    (U : d.Total n) : (c.pair d).Total (m + n) := fun bs h => by
  have h1 := T bs (by omega)
  simp only [pair]
  cases hd : c.dec bs with
  | none => rw [hd] at h1; cases h1
  | some x =>
    have h2 := S.dec bs x.1 x.2 hd
    have h3 := U x.2 (by omega)
    cases hd' : d.dec x.2 with
    | none => rw [hd'] at h3; cases h3
    | some y => simp [hd']

theorem decN_enc {c : Codec α} (L : c.Lawful) (as : List α) (rest : Bytes)
    (h : ∀ a ∈ as, c.valid a) : decN c as.length (as.flatMap c.enc ++ rest) = some (as, rest) := by
  induction as with
  | nil => rfl
  | cons a as ih =>
    simp only [List.flatMap_cons, List.length_cons, decN, List.append_assoc,
      L.dec_enc a _ (h a (by simp)), ih (fun b hb => h b (by simp [hb]))]

theorem decN_sound {c : Codec α} (L : c.Lawful) (n : Nat) (bs : Bytes) (as : List α) (rest : Bytes)
    (h : decN c n bs = some (as, rest)) : (as.length = n ∧ ∀ a ∈ as, c.valid a) ∧
      ∃ used, bs = used ++ rest ∧ ∀ rest', decN c n (used ++ rest') = some (as, rest') := by
  induction n generalizing bs as rest with
  | zero =>
    simp only [decN, Option.some.injEq, Prod.mk.injEq] at h
    obtain ⟨e, e'⟩ := h
    subst e e'
    exact ⟨⟨rfl, by simp⟩, [], by simp, fun _ => by simp [decN]⟩
  | succ n ih =>
    simp only [decN] at h
    split at h
    · cases h
    · rename_i a r hd
      split at h
      · cases h
      · rename_i bs' r' hd'
        simp only [Option.some.injEq, Prod.mk.injEq] at h
        obtain ⟨e, e'⟩ := h
        subst e e'
        obtain ⟨⟨hl, hv⟩, v, hv', hs⟩ := ih _ _ _ hd'
        obtain ⟨u, hu, hr⟩ := L.prefix' _ _ _ hd
        refine ⟨⟨by simp [hl], ?_⟩, u ++ v, by rw [hu, hv', List.append_assoc], fun rest' => ?_⟩
        · intro b hb
          rcases List.mem_cons.1 hb with e | e
          · rw [e]; exact L.sound _ _ _ hd
          · exact hv b e
        · simp only [decN, List.append_assoc, hr, hs]

theorem array_lawful {c : Codec α} (L : c.Lawful) (n : Nat) : (array n c).Lawful where
  dec_enc as rest h := by
    have h' := decN_enc L as rest h.2
    rw [h.1] at h'
    exact h'
  sound bs as rest h := (decN_sound L n bs as rest h).1
  prefix' bs as rest h := (decN_sound L n bs as rest h).2

theorem flatMap_length {c : Codec α} {m : Nat} (S : c.Sized m) (as : List α)
    (h : ∀ a ∈ as, c.valid a) : (as.flatMap c.enc).length = as.length * m := by
  induction as with
  | nil => simp
  | cons a as ih =>
    simp only [List.flatMap_cons, List.length_append, List.length_cons, Nat.succ_mul,
      S.enc a (h a (by simp)), ih (fun b hb => h b (by simp [hb]))]
    omega

theorem decN_length {c : Codec α} {m : Nat} (S : c.Sized m) (n : Nat) (bs : Bytes) (as : List α)
    (rest : Bytes) (h : decN c n bs = some (as, rest)) : bs.length = n * m + rest.length := by
  induction n generalizing bs as rest with
  | zero =>
    simp only [decN, Option.some.injEq, Prod.mk.injEq] at h
    rw [← h.2]; omega
  | succ n ih =>
    simp only [decN] at h
    split at h
    · cases h
    · rename_i a r hd
      split at h
      · cases h
      · rename_i bs' r' hd'
        simp only [Option.some.injEq, Prod.mk.injEq] at h
        have h1 := S.dec _ _ _ hd
        have h2 := ih _ _ _ hd'
        rw [← h.2, Nat.succ_mul]; omega

theorem array_sized {c : Codec α} {m : Nat} (S : c.Sized m) (n : Nat) :
    (array n c).Sized (n * m) where
  enc as h := by
    have := flatMap_length S as h.2
    rw [h.1] at this
    exact this
  dec bs as rest h := decN_length S n bs as rest h

theorem array_total {c : Codec α} {m : Nat} (S : c.Sized m) (T : c.Total m) (n : Nat) :
    (array n c).Total (n * m) := fun bs h => by
  show (decN c n bs).isSome = true
  induction n generalizing bs with
  | zero => rfl
  | succ n ih =>
    rw [Nat.succ_mul] at h
    have h1 := T bs (by omega)
    simp only [decN]
    cases hd : c.dec bs with
    | none => rw [hd] at h1; cases h1
    | some x =>
      have h2 := S.dec bs x.1 x.2 hd
      have h3 := ih x.2 (by omega)
      cases hd' : decN c n x.2 with
      | none => rw [hd'] at h3; cases h3
      | some y => simp [hd']

theorem vec_lawful {c : Codec α} (L : c.Lawful) : (vec c).Lawful where
  dec_enc as rest h := by
    have h1 := (uint_lawful 4).dec_enc as.length (as.flatMap c.enc ++ rest) h.1
    simp only [vec, List.append_assoc, h1]
    exact decN_enc L as rest h.2
  sound bs as rest h := by
    simp only [vec] at h ⊢
    split at h
    · cases h
    · rename_i n r hd
      have h1 := decN_sound L _ _ _ _ h
      refine ⟨?_, h1.1.2⟩
      rw [h1.1.1]
      exact (uint_lawful 4).sound _ _ _ hd
  prefix' bs as rest h := by
    simp only [vec] at h ⊢
    split at h
    · cases h
    · rename_i n r hd
      obtain ⟨-, v, hv, hs⟩ := decN_sound L _ _ _ _ h
      obtain ⟨u, hu, hr⟩ := (uint_lawful 4).prefix' _ _ _ hd
      refine ⟨u ++ v, by rw [hu, hv, List.append_assoc], fun rest' => ?_⟩
      simp only [List.append_assoc, hr, hs]

theorem guard_lawful {c : Codec α} (L : c.Lawful) (ok : α → Bool) : (c.guard ok).Lawful where
  dec_enc a rest h := by
    simp only [guard, L.dec_enc _ _ h.1, h.2, if_true]
  sound bs a rest h := by
    simp only [guard] at h ⊢
    split at h
    · cases h
    · rename_i b r hd
      split at h
      · rename_i hk
        simp only [Option.some.injEq, Prod.mk.injEq] at h
        rw [← h.1]
        exact ⟨L.sound _ _ _ hd, hk⟩
      · cases h
  prefix' bs a rest h := by
    simp only [guard] at h ⊢
    split at h
    · cases h
    · rename_i b r hd
      split at h
      · rename_i hk
        simp only [Option.some.injEq, Prod.mk.injEq] at h
        obtain ⟨u, hu, hr⟩ := L.prefix' _ _ _ hd
        refine ⟨u, by rw [← h.2]; exact hu, fun rest' => ?_⟩
        rw [← h.1]
        simp only [hr, hk, if_true]
      · cases h

end Codec

theorem Keys.codec_lawful (K : Keys) : K.codec.Lawful :=
  Codec.map_lawful (Codec.raw_lawful 32) (fun a h => ⟨h, K.len a⟩)
    (fun b h => (congrArg K.dec (K.enc_dec b h) :))

theorem Keys.codec_sized (K : Keys) : K.codec.Sized 32 :=
  Codec.map_sized (Codec.raw_sized 32) (fun a _ => K.len a)

theorem Keys.codec_total (K : Keys) : K.codec.Total 32 := Codec.map_total (Codec.raw_total 32)

end Verif
