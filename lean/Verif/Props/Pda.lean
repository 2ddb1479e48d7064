import Verif.Lemmas.Ed25519
import Verif.Props.Seeds
import Verif.Props.Selectors
/-!
# C79: nobody holds the key of a derived address

The vaults are controlled by an address found by hashing. Such an address is never the encoding of a point of the curve, so no
signature exists for it; only the program can sign for it, and does so with the seeds and bump that give
exactly this address.
-/

namespace Verif

open Spec

namespace Spec

/-- What the hash of seeds with a bump is (`C65_seeds`). -/
def hashed (seeds : List Bytes) (bump : UInt8) (program : Bytes) : Bytes :=
  sha256 (seeds.flatten ++ [bump] ++ program ++ pdaMarker)

/-- The limits on seeds, one being left for the bump. -/
def SeedsFit (seeds : List Bytes) : Prop := seeds.length ≤ 15 ∧ ∀ s ∈ seeds, s.length ≤ 32

end Spec

theorem marker_eq : ascii "ProgramDerivedAddress" = pdaMarker := by decide +kernel

theorem createPda_iff (s : List Bytes) (b : UInt8) (program a : Bytes) :
    createPda (s ++ [[b]]) program = some a ↔ SeedsFit s ∧ a = hashed s b program ∧ ¬ PublicKey a := by
  have hl : ((s ++ [[b]]).length ≤ 16 ∧ ∀ x ∈ s ++ [[b]], x.length ≤ 32) ↔ SeedsFit s := by
    rw [List.length_append, List.length_singleton]
    unfold SeedsFit
    refine and_congr ⟨by omega, by omega⟩ ⟨fun h x hx => h x (List.mem_append_left _ hx), fun h x hx => ?_⟩
    rcases List.mem_append.1 hx with hx | hx
    · exact h x hx
    · rw [List.mem_singleton.1 hx]; exact (by decide : 1 ≤ 32)
  have hf : (s ++ [[b]]).flatten = s.flatten ++ [b] := by simp
  unfold createPda
  rw [hf, marker_eq]
  by_cases h : SeedsFit s
  · rw [if_pos (hl.2 h)]
    show (if Ed25519.onCurve (hashed s b program) = true then none else some (hashed s b program)) = some a ↔ _
    split
    · rename_i h2
      refine ⟨fun e => (by cases e), fun ⟨_, e, hn⟩ => ?_⟩
      subst e
      exact absurd ((Ed25519.onCurve_iff _).1 h2) hn
    · rename_i h2
      rw [Option.some.injEq]
      refine ⟨fun e => ?_, fun ⟨_, e, _⟩ => e.symm⟩
      subst e
      exact ⟨h, rfl, fun hp => h2 ((Ed25519.onCurve_iff _).2 hp)⟩
  · rw [if_neg fun c => h (hl.1 c)]
    exact ⟨fun e => (by cases e), fun ⟨hs, _⟩ => absurd hs h⟩

theorem createPda_none (s : List Bytes) (b : UInt8) (program : Bytes) :
    createPda (s ++ [[b]]) program = none ↔ (SeedsFit s → PublicKey (hashed s b program)) := by
  rw [Option.eq_none_iff_forall_ne_some]
  constructor
  · intro h hs
    by_contra hn
    exact h _ ((createPda_iff s b program _).2 ⟨hs, rfl, hn⟩)
  · intro h a e
    obtain ⟨hs, rfl, hn⟩ := (createPda_iff s b program a).1 e
    exact hn (h hs)

theorem findPdaFrom_iff (s : List Bytes) (program a : Bytes) (b : UInt8) : ∀ n, n ≤ 255 →
    (findPdaFrom s program n = some (a, b) ↔ SeedsFit s ∧ b ≠ 0 ∧ b.toNat ≤ n ∧ a = hashed s b program ∧ ¬ PublicKey a ∧
      ∀ k, b.toNat < k → k ≤ n → PublicKey (hashed s (UInt8.ofNat k) program))
  | 0, _ => by
    refine ⟨fun h => (by cases h), fun ⟨_, h0, hb, _⟩ => ?_⟩
    exact absurd (UInt8.toNat_inj.1 (by rw [UInt8.toNat_zero]; omega)) h0
  | n + 1, hn => by
    have ih := findPdaFrom_iff s program a b n (by omega)
    have hlt : n + 1 < 256 := by omega
    have ht : (UInt8.ofNat (n + 1)).toNat = n + 1 := by
      rw [UInt8.toNat_ofNat']; exact Nat.mod_eq_of_lt hlt
    unfold findPdaFrom
    cases hc : createPda (s ++ [[UInt8.ofNat (n + 1)]]) program with
    | some a' =>
      obtain ⟨hs, ha, hp⟩ := (createPda_iff _ _ _ _).1 hc
      show some (a', UInt8.ofNat (n + 1)) = some (a, b) ↔ _
      rw [Option.some.injEq, Prod.mk.injEq]
      constructor
      · rintro ⟨rfl, rfl⟩
        refine ⟨hs, fun e => ?_, by omega, ha, hp, fun k h1 h2 => by omega⟩
        rw [e, UInt8.toNat_zero] at ht
        omega
      · rintro ⟨_, h0, hb, rfl, hp', hk⟩
        by_cases e : b.toNat = n + 1
        · have : b = UInt8.ofNat (n + 1) := UInt8.toNat_inj.1 (by rw [ht, e])
          subst this
          exact ⟨ha, rfl⟩
        · have := hk (n + 1) (by omega) (Nat.le_refl _)
          rw [← ha] at this
          exact absurd this hp
    | none =>
      have hnone := (createPda_none _ _ _).1 hc
      show findPdaFrom s program n = some (a, b) ↔ _
      rw [ih]
      constructor
      · rintro ⟨hs, h0, hb, ha, hp, hk⟩
        refine ⟨hs, h0, by omega, ha, hp, fun k h1 h2 => ?_⟩
        by_cases e : k = n + 1
        · subst e; exact hnone hs
        · exact hk k h1 (by omega)
      · rintro ⟨hs, h0, hb, ha, hp, hk⟩
        refine ⟨hs, h0, ?_, ha, hp, fun k h1 h2 => hk k h1 (by omega)⟩
        by_contra hh
        have e : b = UInt8.ofNat (n + 1) := UInt8.toNat_inj.1 (by rw [ht]; omega)
        subst e
        exact hp (ha ▸ hnone hs)

/-- **C79.** `find_program_address` finds an address and bump if and only if the seeds are within the limits, the address is
the hash with this bump and no point of the curve, and the hash with every larger bump is one. -/
theorem C79_found (s : List Bytes) (program a : Bytes) (b : UInt8) :
    findPda s program = some (a, b) ↔ SeedsFit s ∧ b ≠ 0 ∧ a = hashed s b program ∧ ¬ PublicKey a ∧
      ∀ b', b < b' → PublicKey (hashed s b' program) := by
  unfold findPda
  rw [findPdaFrom_iff s program a b 255 (Nat.le_refl _)]
  constructor
  · rintro ⟨hs, h0, _, ha, hp, hk⟩
    refine ⟨hs, h0, ha, hp, fun b' hb => ?_⟩
    have := hk b'.toNat (UInt8.lt_iff_toNat_lt.1 hb) (by have := b'.toNat_lt; omega)
    rwa [UInt8.ofNat_toNat] at this
  · rintro ⟨hs, h0, ha, hp, hk⟩
    refine ⟨hs, h0, by have := b.toNat_lt; omega, ha, hp, fun k h1 h2 => hk _ (UInt8.lt_iff_toNat_lt.2 ?_)⟩
    rwa [UInt8.toNat_ofNat', Nat.mod_eq_of_lt (by omega)]

/-- **C79.** It fails, which makes the program panic, only if the seeds exceed the limits or all 255 hashes are points. -/
theorem C79_not_found (s : List Bytes) (program : Bytes) :
    findPda s program = none ↔ (SeedsFit s → ∀ b, b ≠ 0 → PublicKey (hashed s b program)) := by
  constructor
  · intro h hs b hb
    by_contra hn
    have from_ : ∀ n, n ≤ 255 → b.toNat ≤ n → findPdaFrom s program n ≠ none := by
      intro n
      induction n with
      | zero =>
        intro _ h0
        exact absurd (UInt8.toNat_inj.1 (by rw [UInt8.toNat_zero]; omega)) hb
      | succ n ih =>
        intro h1 h2 e
        unfold findPdaFrom at e
        cases hc : createPda (s ++ [[UInt8.ofNat (n + 1)]]) program with
        | some a' => rw [hc] at e; cases e
        | none =>
          rw [hc] at e
          by_cases eq : b.toNat = n + 1
          · have : b = UInt8.ofNat (n + 1) := by rw [← eq, UInt8.ofNat_toNat]
            subst this
            exact hn ((createPda_none _ _ _).1 hc hs)
          · exact ih (by omega) (by omega) e
    exact from_ 255 (Nat.le_refl _) (by have := b.toNat_lt; omega) h
  · intro h
    cases hf : findPda s program with
    | none => rfl
    | some r =>
      obtain ⟨hs, h0, ha, hp, _⟩ := (C79_found s program r.1 r.2).1 hf
      exact absurd (ha ▸ h hs r.2 h0) hp


/-! ## The addresses of the program -/

/-- The program's addresses: SHA-256, the ids of the programs, and the bumps found. -/
def programEnv (keys : Nat → Bytes) (hk : ∀ n, (keys n).length = 32) : AddrEnv where
  keyBytes := keys
  hash := sha256
  bump a := ((locate keys a).map Prod.snd).getD 0
  programId := presaleId
  ataProgramId := ataId
  splTokenId := splTokenId
  token2022Id := token2022Id
  lenKey := hk
  lenHash := sha256_length
  lenProgram := by rw [presaleId, pubkey, List.length_reverse, Codec.leBytes_length]
  lenAta := by rw [ataId, pubkey, List.length_reverse, Codec.leBytes_length]
  lenSpl := by rw [splTokenId, pubkey, List.length_reverse, Codec.leBytes_length]
  len2022 := by rw [token2022Id, pubkey, List.length_reverse, Codec.leBytes_length]

/-- **C79.** The seeds of every derived address are within the limits. -/
theorem C79_seeds_fit (E : AddrEnv) {a : Addr} {s : List Bytes} {program : Bytes}
    (h : derivation E a = some (s, program)) : SeedsFit s := by
  have hl : ∀ x, (E.bytes x).length ≤ 32 := fun x => Nat.le_of_eq (E.bytes_length x)
  have h1 := E.lenSpl
  have h2 := E.len2022
  cases a <;> simp only [derivation, Option.some.injEq, Prod.mk.injEq, reduceCtorEq] at h <;>
    obtain ⟨rfl, rfl⟩ := h <;>
    simp [SeedsFit, hl]
  rename_i t
  cases t
  · exact Nat.le_of_eq h1
  · exact Nat.le_of_eq h2

theorem bump_eq {keys : Nat → Bytes} (hk : ∀ n, (keys n).length = 32) {a : Addr} {r : Bytes × UInt8}
    (h : locate keys a = some r) : (programEnv keys hk).bump a = r.2 := by
  show ((locate keys a).map Prod.snd).getD 0 = r.2
  rw [h]; rfl

theorem located_bytes {keys : Nat → Bytes} (hk : ∀ n, (keys n).length = 32) {a : Addr} {r : Bytes × UInt8}
    (h : locate keys a = some r) {s : List Bytes} {program : Bytes}
    (hd : derivation (programEnv keys hk) a = some (s, program)) (hf : findPda s program = some r) :
    (programEnv keys hk).bytes a = r.1 := by
  rw [C65_seeds _ hd, bump_eq hk h]
  exact (((C79_found s program r.1 r.2).1 hf).2.2.1).symm

theorem locate_spec {keys : Nat → Bytes} (hk : ∀ n, (keys n).length = 32) (a : Addr) : ∀ {r : Bytes × UInt8},
    locate keys a = some r → (programEnv keys hk).bytes a = r.1 ∧
      ∀ s program, derivation (programEnv keys hk) a = some (s, program) → findPda s program = some r := by
  have c0 : ascii "presale_authority" =
      [112, 114, 101, 115, 97, 108, 101, 95, 97, 117, 116, 104, 111, 114, 105, 116, 121] := by decide +kernel
  have c1 : ascii "presale" =
      [112, 114, 101, 115, 97, 108, 101] := by decide +kernel
  have c2 : ascii "base_vault" =
      [98, 97, 115, 101, 95, 118, 97, 117, 108, 116] := by decide +kernel
  have c3 : ascii "quote_vault" =
      [113, 117, 111, 116, 101, 95, 118, 97, 117, 108, 116] := by decide +kernel
  have c4 : ascii "fixed_price_param" =
      [102, 105, 120, 101, 100, 95, 112, 114, 105, 99, 101, 95, 112, 97, 114, 97, 109] := by decide +kernel
  have c5 : ascii "escrow" =
      [101, 115, 99, 114, 111, 119] := by decide +kernel
  have c6 : ascii "merkle_root" =
      [109, 101, 114, 107, 108, 101, 95, 114, 111, 111, 116] := by decide +kernel
  have c7 : ascii "operator" =
      [111, 112, 101, 114, 97, 116, 111, 114] := by decide +kernel
  have c8 : ascii "server_metadata" =
      [115, 101, 114, 118, 101, 114, 95, 109, 101, 116, 97, 100, 97, 116, 97] := by decide +kernel
  have done : ∀ {a : Addr} {r : Bytes × UInt8} {s program}, locate keys a = some r →
      derivation (programEnv keys hk) a = some (s, program) → findPda s program = some r →
      (programEnv keys hk).bytes a = r.1 ∧
      ∀ s program, derivation (programEnv keys hk) a = some (s, program) → findPda s program = some r := by
    intro a r s program h hd hf
    refine ⟨located_bytes hk h hd hf, fun s' program' hd' => ?_⟩
    rw [hd, Option.some.injEq, Prod.mk.injEq] at hd'
    rw [← hd'.1, ← hd'.2]; exact hf
  induction a with
  | key n =>
    intro r h
    rw [locate, Option.some.injEq] at h
    subst h
    exact ⟨rfl, fun s program hd => by cases hd⟩
  | presaleAuthority =>
    intro r h
    exact done h rfl (by rw [locate, presaleAuthority, c0] at h; exact h)
  | presale b m q ib im iq =>
    intro r h
    have h' := h
    simp only [locate, Option.bind_eq_bind, Option.bind_eq_some_iff] at h'
    obtain ⟨x, hx, y, hy, z, hz, hf⟩ := h'
    rw [c1, ← (ib hx).1, ← (im hy).1, ← (iq hz).1] at hf
    exact done h rfl hf
  | baseVault p ip =>
    intro r h
    have h' := h
    simp only [locate, Option.bind_eq_bind, Option.bind_eq_some_iff] at h'
    obtain ⟨x, hx, hf⟩ := h'
    rw [c2, ← (ip hx).1] at hf
    exact done h rfl hf
  | quoteVault p ip =>
    intro r h
    have h' := h
    simp only [locate, Option.bind_eq_bind, Option.bind_eq_some_iff] at h'
    obtain ⟨x, hx, hf⟩ := h'
    rw [c3, ← (ip hx).1] at hf
    exact done h rfl hf
  | fixedPriceArgs p ip =>
    intro r h
    have h' := h
    simp only [locate, Option.bind_eq_bind, Option.bind_eq_some_iff] at h'
    obtain ⟨x, hx, hf⟩ := h'
    rw [c4, ← (ip hx).1] at hf
    exact done h rfl hf
  | escrow p o i ip io =>
    intro r h
    have h' := h
    simp only [locate, Option.bind_eq_bind, Option.bind_eq_some_iff] at h'
    obtain ⟨x, hx, y, hy, hf⟩ := h'
    rw [c5, ← (ip hx).1, ← (io hy).1] at hf
    exact done h rfl hf
  | merkleRoot p v ip =>
    intro r h
    have h' := h
    simp only [locate, Option.bind_eq_bind, Option.bind_eq_some_iff] at h'
    obtain ⟨x, hx, hf⟩ := h'
    rw [c6, ← (ip hx).1, leBytes_range] at hf
    exact done h rfl hf
  | operator c o ic io =>
    intro r h
    have h' := h
    simp only [locate, Option.bind_eq_bind, Option.bind_eq_some_iff] at h'
    obtain ⟨x, hx, y, hy, hf⟩ := h'
    rw [c7, ← (ic hx).1, ← (io hy).1] at hf
    exact done h rfl hf
  | serverMetadata p ip =>
    intro r h
    have h' := h
    simp only [locate, Option.bind_eq_bind, Option.bind_eq_some_iff] at h'
    obtain ⟨x, hx, hf⟩ := h'
    rw [c8, ← (ip hx).1] at hf
    exact done h rfl hf
  | ata o m t io im =>
    intro r h
    have h' := h
    simp only [locate, Option.bind_eq_bind, Option.bind_eq_some_iff] at h'
    obtain ⟨x, hx, y, hy, hf⟩ := h'
    rw [← (io hx).1, ← (im hy).1] at hf
    exact done h rfl hf

theorem locate_eq {keys : Nat → Bytes} (hk : ∀ n, (keys n).length = 32) {a : Addr}
    (hp : ∀ x ∈ parts a, locate keys x ≠ none) {s : List Bytes} {program : Bytes}
    (hd : derivation (programEnv keys hk) a = some (s, program)) : locate keys a = findPda s program := by
  have get : ∀ x ∈ parts a, ∃ y, locate keys x = some y := fun x hx => Option.ne_none_iff_exists'.1 (hp x hx)
  cases a with
  | key n => cases hd
  | presaleAuthority =>
    rw [derivation, Option.some.injEq, Prod.mk.injEq] at hd
    obtain ⟨rfl, rfl⟩ := hd
    rfl
  | presale b m q =>
    obtain ⟨x0, h0⟩ := get b (.head _)
    obtain ⟨x1, h1⟩ := get m (.tail _ (.head _))
    obtain ⟨x2, h2⟩ := get q (.tail _ (.tail _ (.head _)))
    rw [derivation, Option.some.injEq, Prod.mk.injEq] at hd
    obtain ⟨rfl, rfl⟩ := hd
    simp only [locate, Option.bind_eq_bind, h0, h1, h2, Option.bind_some, (locate_spec hk _ h0).1, (locate_spec hk _ h1).1, (locate_spec hk _ h2).1]
    rfl
  | baseVault p =>
    obtain ⟨x0, h0⟩ := get p (.head _)
    rw [derivation, Option.some.injEq, Prod.mk.injEq] at hd
    obtain ⟨rfl, rfl⟩ := hd
    simp only [locate, Option.bind_eq_bind, h0, Option.bind_some, (locate_spec hk _ h0).1]
    rfl
  | quoteVault p =>
    obtain ⟨x0, h0⟩ := get p (.head _)
    rw [derivation, Option.some.injEq, Prod.mk.injEq] at hd
    obtain ⟨rfl, rfl⟩ := hd
    simp only [locate, Option.bind_eq_bind, h0, Option.bind_some, (locate_spec hk _ h0).1]
    rfl
  | fixedPriceArgs p =>
    obtain ⟨x0, h0⟩ := get p (.head _)
    rw [derivation, Option.some.injEq, Prod.mk.injEq] at hd
    obtain ⟨rfl, rfl⟩ := hd
    simp only [locate, Option.bind_eq_bind, h0, Option.bind_some, (locate_spec hk _ h0).1]
    rfl
  | escrow p o i =>
    obtain ⟨x0, h0⟩ := get p (.head _)
    obtain ⟨x1, h1⟩ := get o (.tail _ (.head _))
    rw [derivation, Option.some.injEq, Prod.mk.injEq] at hd
    obtain ⟨rfl, rfl⟩ := hd
    simp only [locate, Option.bind_eq_bind, h0, h1, Option.bind_some, (locate_spec hk _ h0).1, (locate_spec hk _ h1).1]
    rfl
  | merkleRoot p v =>
    obtain ⟨x0, h0⟩ := get p (.head _)
    rw [derivation, Option.some.injEq, Prod.mk.injEq] at hd
    obtain ⟨rfl, rfl⟩ := hd
    simp only [locate, Option.bind_eq_bind, h0, Option.bind_some, (locate_spec hk _ h0).1]
    rw [leBytes_range]
    rfl
  | operator c o =>
    obtain ⟨x0, h0⟩ := get c (.head _)
    obtain ⟨x1, h1⟩ := get o (.tail _ (.head _))
    rw [derivation, Option.some.injEq, Prod.mk.injEq] at hd
    obtain ⟨rfl, rfl⟩ := hd
    simp only [locate, Option.bind_eq_bind, h0, h1, Option.bind_some, (locate_spec hk _ h0).1, (locate_spec hk _ h1).1]
    rfl
  | serverMetadata p =>
    obtain ⟨x0, h0⟩ := get p (.head _)
    rw [derivation, Option.some.injEq, Prod.mk.injEq] at hd
    obtain ⟨rfl, rfl⟩ := hd
    simp only [locate, Option.bind_eq_bind, h0, Option.bind_some, (locate_spec hk _ h0).1]
    rfl
  | ata o m t =>
    obtain ⟨x0, h0⟩ := get o (.head _)
    obtain ⟨x1, h1⟩ := get m (.tail _ (.head _))
    simp only [derivation, Option.some.injEq, Prod.mk.injEq] at hd
    obtain ⟨rfl, rfl⟩ := hd
    simp only [locate, Option.bind_eq_bind, h0, h1, Option.bind_some, (locate_spec hk _ h0).1, (locate_spec hk _ h1).1]
    rfl

/-- **C79.** An address of the program is the hash of its seeds with the largest bump that gives no point of the curve, nobody holds
a key for it, and signing with its seeds and bump gives exactly this address. -/
theorem C79_address {keys : Nat → Bytes} (hk : ∀ n, (keys n).length = 32) {a : Addr} {r : Bytes × UInt8}
    (h : locate keys a = some r) {s : List Bytes} {program : Bytes}
    (hd : derivation (programEnv keys hk) a = some (s, program)) :
    (programEnv keys hk).bytes a = r.1 ∧ (programEnv keys hk).bump a = r.2 ∧ r.1 = hashed s r.2 program ∧
      ¬ PublicKey r.1 ∧ (∀ b', r.2 < b' → PublicKey (hashed s b' program)) ∧
      createPda (s ++ [[r.2]]) program = some r.1 := by
  obtain ⟨hb, hf⟩ := locate_spec hk a h
  obtain ⟨hs, _, ha, hn, hl⟩ := (C79_found s program r.1 r.2).1 (hf s program hd)
  exact ⟨hb, bump_eq hk h, ha, hn, hl, (createPda_iff s r.2 program r.1).2 ⟨hs, ha, hn⟩⟩

/-- **C79.** Only keys sign: an address whose bytes are a public key is not derived. This is what the model of transactions takes
for granted (`Tx.signed`). -/
theorem C79_only_keys_sign {keys : Nat → Bytes} (hk : ∀ n, (keys n).length = 32) {a : Addr}
    (h : locate keys a ≠ none) (hpk : PublicKey ((programEnv keys hk).bytes a)) : a.isKey = true := by
  obtain ⟨r, hr⟩ := Option.ne_none_iff_exists'.1 h
  cases hd : derivation (programEnv keys hk) a with
  | none => obtain ⟨n, rfl⟩ := (C65_derived _ _).1 hd; rfl
  | some sp =>
    have := C79_address hk hr hd
    rw [this.1] at hpk
    exact absurd hpk this.2.2.2.1

/-- **C79.** Different addresses have different bytes, given only that keys are different points and that SHA-256 has no collision
among the hashed strings. -/
theorem C79_distinct {keys : Nat → Bytes} (hk : ∀ n, (keys n).length = 32) {S : Addr → Prop}
    (hS : ∀ a, S a → locate keys a ≠ none) (hkeys : ∀ n m, S (.key n) → S (.key m) → keys n = keys m → n = m)
    (hpk : ∀ n, S (.key n) → PublicKey (keys n))
    (hhash : ∀ a b x y, S a → S b → (programEnv keys hk).message a = some x → (programEnv keys hk).message b = some y →
      sha256 x = sha256 y → x = y)
    (hparts : ∀ a, S a → ∀ b ∈ parts a, S b) (hfit : ∀ a, S a → seedsFit a) {a b : Addr} (ha : S a) (hb : S b)
    (e : (programEnv keys hk).bytes a = (programEnv keys hk).bytes b) : a = b := by
  refine C65_distinct (S := S) ⟨hhash, hkeys, fun n c x hn hc hm e => ?_, ?_⟩ hparts hfit ha hb e
  · have hx : (programEnv keys hk).bytes c = sha256 x := AddrEnv.bytes_hash hm
    have := C79_only_keys_sign hk (hS c hc) (by
      have e' : keys n = sha256 x := e
      rw [hx, ← e']; exact hpk n hn)
    cases c <;> simp only [Addr.isKey, Bool.false_eq_true] at this
    cases hm
  · show splTokenId ≠ token2022Id
    decide +kernel

/-- **C79.** If everything it is derived from has been found, a derived address is missing, and the program panics, only if all 255
hashes happen to be points. -/
theorem C79_missing {keys : Nat → Bytes} (hk : ∀ n, (keys n).length = 32) {a : Addr}
    (hp : ∀ x ∈ parts a, locate keys x ≠ none) {s : List Bytes} {program : Bytes}
    (hd : derivation (programEnv keys hk) a = some (s, program)) :
    locate keys a = none ↔ ∀ b, b ≠ 0 → PublicKey (hashed s b program) := by
  rw [locate_eq hk hp hd, C79_not_found]
  exact ⟨fun h => h (C79_seeds_fit _ hd), fun h _ => h⟩

/-- **C79.** The authority over the vaults is this address, with bump 255; the program signs with seeds that give it; nobody
holds a key for it. -/
theorem C79_authority : presaleId = programIdBytes ∧ presaleAuthority = some (authorityBytes, 255) ∧
    createPda authoritySeeds presaleId = some authorityBytes ∧ ¬ PublicKey authorityBytes := by
  have h : presaleAuthority = some (authorityBytes, 255) := by decide +kernel
  refine ⟨by decide +kernel, h, by decide +kernel, ?_⟩
  rw [← Ed25519.onCurve_iff]
  decide +kernel

/-- **C79.** The signer of the calls that carry events; its larger bumps are points, so a bump below 255 was needed. -/
theorem C79_event_authority : eventAuthority = some (eventAuthorityBytes, 251) ∧ ¬ PublicKey eventAuthorityBytes ∧
    ∀ b : UInt8, 251 < b → PublicKey (hashed [ascii "__event_authority"] b presaleId) := by
  have h : eventAuthority = some (eventAuthorityBytes, 251) := by decide +kernel
  have := (C79_found _ _ _ _).1 h
  exact ⟨h, this.2.2.2.1, this.2.2.2.2⟩

/-! ## Examples -/

/-- The base point of the curve is a public key (`y = 4/5`). -/
example : PublicKey (88 :: List.replicate 31 102) := by
  rw [← Ed25519.onCurve_iff]
  decide +kernel

/-- An address known from the Solana main network: the event authority of another program. -/
example : findPda [ascii "__event_authority"] (pubkey "JUP6LkbZbjS1jKKwapdHNy74zcZ3tLUZoi5QNyVTaV4") =
    some (pubkey "D8cy77BBepLMngZx6ZukaTff5hCt1HrWyKk3Hnd9oitf", 255) := by decide +kernel


/-- Keys that are points of the curve. -/
def pointKeys (n : Nat) : Bytes := leBytes 32 (n + 22)

/-- The hypotheses of `C79_address` and `C79_distinct` are met: these addresses are found, the keys are points, no two are
the same. -/
example : (∀ a ∈ [Ex.creator, Ex.baseKey, Ex.bm, Ex.qm, Ex.alice, Ex.sale, Ex.escrowOf Ex.alice], locate pointKeys a ≠ none) ∧
    (∀ a ∈ [Ex.creator, Ex.baseKey, Ex.bm, Ex.qm, Ex.alice], ∃ n, a = .key n ∧ PublicKey (pointKeys n)) ∧
    ([Ex.creator, Ex.baseKey, Ex.bm, Ex.qm, Ex.alice, Ex.sale, Ex.escrowOf Ex.alice].map (locate pointKeys)).Nodup := by
  refine ⟨by decide +kernel, ?_, by decide +kernel⟩
  intro a ha
  simp only [List.mem_cons, List.not_mem_nil, or_false] at ha
  rcases ha with rfl | rfl | rfl | rfl | rfl <;>
    exact ⟨_, rfl, (Ed25519.onCurve_iff _).1 (by decide +kernel)⟩


end Verif
