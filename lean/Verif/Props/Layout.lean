import Verif.Lemmas.Fits
import Verif.Lemmas.Sums
import Verif.Model.Lamports
import Verif.Examples
import Mathlib.Data.List.Dedup
/-!
# C64: accounts as bytes

The model's accounts hold unbounded numbers and symbolic addresses. Here every account a reachable
state holds is shown to survive being written to its bytes and read back, in exactly the space that
was reserved and paid for.
-/

namespace Verif
open Spec Codec

namespace Spec

/-- The account of type `k` at `a` holds `v`. -/
def Stored (w : World) : (k : Kind) → Addr → k.Value → Prop
  | .presale, a, v => w.presales a = some v
  | .escrow, a, v => w.escrows.get? a = some v
  | .fixedArgs, a, v => w.fixedArgs a = some v
  | .merkleRoot, a, v => w.merkleRoots a = some v
  | .operator, a, v => w.operators a = some v
  | .metadata, a, v => w.metadata a = some v

/-- The addresses an account mentions. -/
def addresses : (k : Kind) → k.Value → List Addr
  | .presale, v =>
    let p : Presale := v
    [p.owner, p.quoteMint, p.baseMint, p.baseTokenVault, p.quoteTokenVault, p.base]
  | .escrow, v => let e : Escrow := v; [e.presale, e.owner]
  | .fixedArgs, v => let x : FixedPriceArgs := v; [x.owner, x.presale]
  | .merkleRoot, v => let c : MerkleRootConfig := v; [c.presale]
  | .operator, v => let o : Operator := v; [o.owner, o.creator]
  | .metadata, v => let m : ServerMetadata := v; [m.presale]

end Spec

theorem b8 : 256 ^ 1 = u8Bound := by rw [u8Bound_eq]; norm_num
theorem b16 : 256 ^ 2 = u16Bound := by rw [u16Bound_eq]; norm_num
theorem b32 : 256 ^ 4 = u32Bound := by rw [u32Bound_eq]; norm_num
theorem b64 : 256 ^ 8 = u64Bound := by rw [u64Bound_eq]; norm_num
theorem b128 : 256 ^ 16 = u128Bound := by rw [u128_eq_sq, u64Bound_eq]; norm_num

theorem bounds : 5 < u8Bound ∧ 10000 < u16Bound ∧ 0 < u64Bound ∧ u8Bound < u64Bound := by
  rw [u8Bound_eq, u16Bound_eq, u64Bound_eq]; norm_num

/-- The totals of a presale fit `u64`. -/
theorem PInv.totals {t : Nat} {a : Addr} {p : Presale} {es : AMap Addr Escrow} (P : PInv t a p es) :
    p.totalClaimedToken < u64Bound ∧ p.totalRefundedQuoteToken < u64Bound := by
  have hz := bounds.2.2.1
  by_cases hend : p.presaleEndTime ≤ t
  · constructor
    · by_cases hc : p.presaleMinimumCap ≤ p.totalDeposit
      · have h1 := P.claimsDue hend hc
        have h2 := totalSold_le P.static
        have h3 := P.static.supplyLt
        omega
      · rw [P.book.totCl, lsum_congr (g' := fun _ => 0) (fun i r hr =>
          (P.book.reg i r hr).claim0 (Or.inr (by omega)))]
        rw [lsum_zero fun _ _ _ => rfl]; exact hz
    · have h1 := P.refundsDue hend
      have h3 := P.book.bound
      by_cases hc : p.presaleMinimumCap ≤ p.totalDeposit
      · have h2 := budget P.book hc
        omega
      · have h2 := lsum_refundPool P.book (by omega)
        omega
  · constructor
    · rw [P.book.totCl, lsum_congr (g' := fun _ => 0) (fun i r hr =>
        (P.book.reg i r hr).claim0 (Or.inl (by omega)))]
      rw [lsum_zero fun _ _ _ => rfl]; exact hz
    · rw [P.book.totRef, lsum_congr (g' := fun _ => 0) (fun i r hr =>
        (P.book.reg i r hr).refund0 (by omega))]
      rw [lsum_zero fun _ _ _ => rfl]; exact hz

/-- A registry slot fits its layout. -/
theorem registry_valid {t : Nat} {a : Addr} {p : Presale} {es : AMap Addr Escrow} (P : PInv t a p es)
    (hcount : p.totalEscrow < u64Bound) {i : Nat} {r : Registry} (hr : p.registries[i]? = some r) :
    registryCodec.valid r := by
  have h1 := P.book.reg_le hr
  have h2 := (P.static.supply_lt hr).2
  have h3 := P.totals
  have h4 : r.totalEscrow ≤ p.totalEscrow := by
    rw [P.book.totEsc]; exact le_lsum (g := Registry.totalEscrow) hr
  have h5 : r.totalClaimedToken ≤ p.totalClaimedToken := by
    rw [P.book.totCl]; exact le_lsum (g := Registry.totalClaimedToken) hr
  have h6 : r.totalRefundedQuoteToken ≤ p.totalRefundedQuoteToken := by
    rw [P.book.totRef]; exact le_lsum (g := Registry.totalRefundedQuoteToken) hr
  have hb := bounds
  have h7 : r.buyerMinimumDepositCap < u64Bound ∧ r.buyerMaximumDepositCap < u64Bound ∧
      r.depositFeeBps < u16Bound := by
    by_cases hi : i < p.totalPresaleRegistryCount
    · have h8 := P.static.reg i r hr hi
      have h9 := P.static.maxLt
      omega
    · rw [(P.book.reg i r hr).unused (by omega)]
      simp only [Registry.fresh]
      omega
  rw [← b64, ← b16] at h7
  rw [← b64] at h1 h2 h3 hcount
  exact ⟨h2, h1.2.2.1, Nat.lt_of_le_of_lt h4 hcount, Nat.lt_of_le_of_lt h5 h3.1,
    Nat.lt_of_le_of_lt h6 h3.2, h7.1, h7.2.1, h1.2.2.2, h7.2.2, trivial, trivial⟩

theorem flag_le (x : TokenProgram) : x.flag ≤ 1 := by cases x <;> decide

theorem presale_valid {w : World} (R : Reachable w) {K : Keys} {a : Addr}
    {p : Presale} (h : w.presales a = some p)
    (hkn : ∀ x ∈ [p.owner, p.quoteMint, p.baseMint, p.baseTokenVault, p.quoteTokenVault, p.base],
      K.known x) :
    (presaleCodec K).valid p := by
  have W := R.winv
  have F := R.fits
  have hb := bounds
  have S := W.core.sale a p h
  have T := F.terms a p h
  have P := S.pinv
  have C := F.count a p h
  have h1 := P.totals
  have h2 := P.static.maxLt
  have h3 := P.static.minLe
  have h4 := P.static.supplyLt
  have h5 := P.sched.range
  have h6 := P.sched.order
  have h7 := P.sched.immLe
  have h8 := P.static.startBefore
  have h9 := P.book.bound
  have h10 := P.flags.w
  have h11 := P.flags.f
  have h12 := P.flags.u
  have h13 := P.static.countLe
  have h14 := P.static.bps
  have hf : p.baseTokenProgramFlag ≤ 1 ∧ p.quoteTokenProgramFlag ≤ 1 := by
    obtain ⟨m, _, _, e1⟩ := S.baseMint
    obtain ⟨m', _, _, e2⟩ := S.quoteMint
    rw [← e1, ← e2]
    exact ⟨flag_le _, flag_le _⟩
  have hv : p.vestingStartTime < u64Bound ∧ p.vestingEndTime < u64Bound := by
    rcases P.sched.timing with ⟨t1, t2⟩ | ⟨_, _, _, _, t1, t2⟩ <;> omega
  have hc : p.createdAt < u64Bound := by omega
  have hr : ∀ r ∈ p.registries, registryCodec.valid r := by
    intro r hr
    obtain ⟨i, hi⟩ := List.mem_iff_getElem?.1 hr
    exact registry_valid P C hi
  have q1 := T.mode
  have q2 := T.whitelist
  have q3 := T.unsold
  have q4 := T.raw0
  have q5 := T.raw1
  have q6 := T.raw2
  rw [← b8] at *
  rw [← b16] at *
  rw [← b64] at *
  rw [← b128] at *
  refine ⟨hkn p.owner (by simp), hkn p.quoteMint (by simp), hkn p.baseMint (by simp), hkn p.baseTokenVault (by simp), hkn p.quoteTokenVault (by simp),
    hkn p.base (by simp), trivial, q1, q2, trivial, h2, ?_, ?_, ?_, h4, ?_, C, hc, ?_, ?_, ?_, trivial, hv.1, hv.2,
    h1.1, h1.2, ?_, ?_, trivial, ?_, ?_, ?_, ?_, q3, ?_, ?_, q4, q5, q6, trivial, P.static.len, hr⟩
  all_goals first
    | (show p.presaleMinimumCap < _; omega)
    | (show p.presaleStartTime < _; omega)
    | (show p.presaleEndTime < _; omega)
    | (show p.totalDeposit < _; omega)
    | (show p.lockDuration < _; omega)
    | (show p.vestDuration < _; omega)
    | (show p.immediateReleaseTimestamp < _; omega)
    | (show p.totalDepositFee < _; omega)
    | (show p.depositFeeCollected < _; omega)
    | (show p.hasCreatorWithdrawn < _; omega)
    | (show p.baseTokenProgramFlag < _; omega)
    | (show p.quoteTokenProgramFlag < _; omega)
    | (show p.totalPresaleRegistryCount < _; omega)
    | (show p.isUnsoldTokenActionPerformed < _; omega)
    | (show p.immediateReleaseBps < _; omega)

theorem escrow_valid {w : World} (R : Reachable w) (hclock : w.clock < (2 : Int) ^ 64) {K : Keys} {a : Addr}
    {e : Escrow} (h : w.escrows.get? a = some e)
    (hkn : ∀ x ∈ [e.presale, e.owner], K.known x) :
    (escrowCodec K).valid e := by
  have W := R.winv
  have F := R.fits
  have hb := bounds
  obtain ⟨_, p, hp⟩ := W.core.esc (a, e) (AMap.get?_mem h)
  have S := W.core.sale _ p hp
  have P := S.pinv
  obtain ⟨r, hr, E⟩ := P.escBook h rfl
  have h1 := P.book.dep_le h rfl hr
  have h2 := P.book.reg_le hr
  have h3 := (P.static.supply_lt hr).2
  have h4 := P.static.countLe
  have h5 := E.idx
  have h6 := E.capLe
  have h7 := P.static.reg _ r hr h5
  have h8 := P.static.maxLt
  have h9 := E.refreshed
  have h10 := E.refreshed0
  have h11 := E.flag
  have hcl : w.clock.toNat < u64Bound := by
    rw [u64Bound_eq]
    have : w.clock < 18446744073709551616 := hclock
    omega
  have hclaim : e.totalClaimedToken + e.pendingClaimToken < u64Bound := by
    by_cases hend : p.presaleEndTime ≤ w.clock.toNat
    · by_cases hc : p.presaleMinimumCap ≤ p.totalDeposit
      · rcases E.claim hend hc with h0 | ⟨_, h0⟩
        · omega
        · rw [h0]
          exact Nat.lt_of_le_of_lt (claimableAt_lt P.static.bps h1.1 _) h3
      · have := E.claim0 (Or.inr (by omega))
        omega
    · have := E.claim0 (Or.inl (by omega))
      omega
  rw [← b8] at *
  rw [← b64] at *
  refine ⟨hkn e.presale (by simp), hkn e.owner (by simp), ?_, ?_, ?_, ?_, trivial, ?_, ?_, ?_, ?_, ?_, trivial⟩
  all_goals first
    | (show e.totalDeposit < _; omega)
    | (show e.totalClaimedToken < _; omega)
    | (show e.isRemainingQuoteWithdrawn < _; omega)
    | (show e.registryIndex < _; omega)
    | (show e.pendingClaimToken < _; omega)
    | (show e.depositMaxCap < _; omega)
    | (show e.createdAt < _; omega)
    | (show e.totalDepositFee < _; omega)
    | (show e.lastRefreshedAt < _; omega)

theorem fixedArgs_valid {w : World} (R : Reachable w) {K : Keys} {a : Addr}
    {x : FixedPriceArgs} (h : w.fixedArgs a = some x)
    (hkn : ∀ y ∈ [x.owner, x.presale], K.known y) :
    (fixedPriceArgsCodec K).valid x := by
  have W := R.winv
  have F := R.fits
  have hb := bounds
  have h1 := (W.aux.fixed a x h).2
  rw [← b8] at hb
  rw [← b128] at h1
  refine ⟨trivial, ?_, h1.2.1, hkn x.owner (by simp), hkn x.presale (by simp), trivial⟩
  show x.disableWithdraw < _
  omega

theorem merkleRoot_valid {w : World} (R : Reachable w) {K : Keys} {a : Addr}
    {c : MerkleRootConfig} (h : w.merkleRoots a = some c)
    (hkn : ∀ y ∈ [c.presale], K.known y) :
    (merkleRootConfigCodec K).valid c := by
  have W := R.winv
  have F := R.fits
  have hb := bounds
  have h1 := F.roots a c h
  rw [← b64] at h1
  have h2 := h1.1
  unfold isHash32 at h2
  have h3 : c.root.length = 32 := by simpa using h2
  exact ⟨h3, trivial, hkn c.presale (by simp), h1.2, trivial⟩

theorem operator_valid {w : World} (R : Reachable w) {K : Keys} {a : Addr}
    {o : Operator} (h : w.operators a = some o)
    (hkn : ∀ y ∈ [o.owner, o.creator], K.known y) :
    (operatorCodec K).valid o := by
  have W := R.winv
  have F := R.fits
  have hb := bounds
  exact ⟨hkn o.owner (by simp), hkn o.creator (by simp), trivial⟩

theorem metadata_valid {w : World} (R : Reachable w) {K : Keys} {a : Addr}
    {m : ServerMetadata} (h : w.metadata a = some m)
    (hkn : ∀ y ∈ [m.presale], K.known y) :
    (serverMetadataCodec K).valid m := by
  have W := R.winv
  have F := R.fits
  have hb := bounds
  have h1 := F.metas a m h
  unfold urlInRange at h1
  simp only [Bool.and_eq_true, decide_eq_true_eq] at h1
  rw [← b32] at h1
  exact ⟨hkn m.presale (by simp), trivial, ⟨h1.1, fun _ _ => trivial⟩, h1.2⟩

/-- Every stored account fits its layout. -/
theorem stored_valid {w : World} (R : Reachable w) (hclock : w.clock < (2 : Int) ^ 64) {K : Keys} {k : Kind}
    {a : Addr} {v : k.Value} (h : Stored w k a v) (hk : ∀ x ∈ addresses k v, K.known x) :
    (k.codec K).valid v := by
  cases k with
  | presale => exact presale_valid R h hk
  | escrow => exact escrow_valid R hclock h hk
  | fixedArgs => exact fixedArgs_valid R h hk
  | merkleRoot => exact merkleRoot_valid R h hk
  | operator => exact operator_valid R h hk
  | metadata => exact metadata_valid R h hk

/-! ## C64 -/

/-- **C64.** Writing an account of a reachable state and reading it back, whatever follows it, gives the account. -/
theorem C64_round_trip {w : World} (R : Reachable w) (hclock : w.clock < (2 : Int) ^ 64) (D : Discs Kind) {K : Keys}
    {k : Kind} {a : Addr} {v : k.Value} (h : Stored w k a v) (hk : ∀ x ∈ addresses k v, K.known x) (rest : Bytes) :
    readAccount D K k (writeAccount D K k v ++ rest) = some v := by
  have hv := stored_valid R hclock h hk
  unfold readAccount writeAccount
  rw [List.append_assoc, List.take_left' (D.len k), List.drop_left' (D.len k), if_pos rfl,
    (Kind.codec_lawful K k).dec_enc v rest hv]
  rfl

/-- **C64.** The bytes take exactly the space reserved for the account, for which rent is paid. -/
theorem C64_size {w : World} (R : Reachable w) (hclock : w.clock < (2 : Int) ^ 64) (D : Discs Kind) {K : Keys}
    {k : Kind} {a : Addr} {v : k.Value} (h : Stored w k a v) (hk : ∀ x ∈ addresses k v, K.known x) (r : RentEnv) :
    accountSize r w a = some (writeAccount D K k v).length := by
  have hv := stored_valid R hclock h hk
  have W := R.winv
  unfold writeAccount
  rw [List.length_append, D.len]
  cases k with
  | presale =>
    have e := (W.core.sale a v h).pinv.static.key
    have hl : ((Kind.presale.codec K).enc v).length = 1264 := (presaleCodec_sized K).enc v hv
    have h' : w.presales a = some v := h
    rw [hl]
    have e' : a = Addr.presale (Presale.base v) (Presale.baseMint v) (Presale.quoteMint v) := e
    rw [e'] at h' ⊢
    simp only [accountSize, h']
    rfl
  | escrow =>
    have e := (W.core.esc (a, v) (AMap.get?_mem h)).1
    have hl : ((Kind.escrow.codec K).enc v).length = 192 := (escrowCodec_sized K).enc v hv
    have h' : w.escrows.get? a = some v := h
    rw [hl]
    have e' : a = Addr.escrow (Escrow.presale v) (Escrow.owner v) (Escrow.registryIndex v) := e
    rw [e'] at h' ⊢
    simp only [accountSize, h']
    rfl
  | fixedArgs =>
    have e := (W.aux.fixed a v h).1
    have hl : ((Kind.fixedArgs.codec K).enc v).length = 160 := (fixedPriceArgsCodec_sized K).enc v hv
    have h' : w.fixedArgs a = some v := h
    rw [hl]
    have e' : a = Addr.fixedPriceArgs (FixedPriceArgs.presale v) := e
    rw [e'] at h' ⊢
    simp only [accountSize, h']
    rfl
  | merkleRoot =>
    have e := (W.aux.merkle a v h).1
    have hl : ((Kind.merkleRoot.codec K).enc v).length = 144 := (merkleRootConfigCodec_sized K).enc v hv
    have h' : w.merkleRoots a = some v := h
    rw [hl]
    have e' : a = Addr.merkleRoot (MerkleRootConfig.presale v) (MerkleRootConfig.version v) := e
    rw [e'] at h' ⊢
    simp only [accountSize, h']
    rfl
  | operator =>
    have e := W.aux.ops a v h
    have hl : ((Kind.operator.codec K).enc v).length = 128 := (operatorCodec_sized K).enc v hv
    have h' : w.operators a = some v := h
    rw [hl]
    have e' : a = Addr.operator (Operator.creator v) (Operator.owner v) := e
    rw [e'] at h' ⊢
    simp only [accountSize, h']
    rfl
  | metadata =>
    have e := (W.aux.metas a v h).1
    have h' : w.metadata a = some v := h
    have hl : ((Kind.metadata.codec K).enc v).length = 32 + 128 + (4 + (ServerMetadata.serverUrl v).length) := by
      show (K.enc (ServerMetadata.presale v) ++ (List.replicate 128 0 ++ str.enc (ServerMetadata.serverUrl v))).length
        = _
      rw [List.length_append, List.length_append, K.len, List.length_replicate, str_length, Nat.add_assoc]
    rw [hl]
    have e' : a = Addr.serverMetadata (ServerMetadata.presale v) := e
    rw [e'] at h' ⊢
    simp only [accountSize, h']
    show some (8 + (32 + 128 + 4 + (ServerMetadata.serverUrl v).length)) = _
    rw [Nat.add_assoc (32 + 128) 4]

/-- **C64.** The bytes of an account of one type are never read as an account of another. -/
theorem C64_kinds (D : Discs Kind) (K : Keys) {k k' : Kind} (h : k' ≠ k) (v : k.Value) (rest : Bytes) :
    readAccount D K k' (writeAccount D K k v ++ rest) = none := by
  unfold readAccount writeAccount
  rw [List.append_assoc, List.take_left' (D.len k), if_neg (fun e => h (D.inj _ _ e.symm))]

/-- **C64.** Bytes that are read as an account are read as the same account after it is written back. -/
theorem C64_rewrite (D : Discs Kind) (K : Keys) {k : Kind} {data : Bytes} {v : k.Value}
    (h : readAccount D K k data = some v) (rest : Bytes) :
    readAccount D K k (writeAccount D K k v ++ rest) = some v := by
  have hv : (k.codec K).valid v := by
    unfold readAccount at h
    split at h
    · cases hd : (k.codec K).dec (data.drop 8) with
      | none => rw [hd] at h; simp at h
      | some x =>
        rw [hd] at h
        obtain ⟨y, rest'⟩ := x
        simp only [Option.map_some, Option.some.injEq] at h
        subst h
        exact (Kind.codec_lawful K k).sound _ _ _ hd
    · simp at h
  unfold readAccount writeAccount
  rw [List.append_assoc, List.take_left' (D.len k), List.drop_left' (D.len k), if_pos rfl,
    (Kind.codec_lawful K k).dec_enc v rest hv]
  rfl

/-- Space of the accounts of a type whose size is fixed. -/
def Kind.fixedSpace : Kind → Option Nat
  | .presale => some PRESALE_SPACE
  | .escrow => some ESCROW_SPACE
  | .fixedArgs => some FIXED_ARGS_SPACE
  | .merkleRoot => some MERKLE_SPACE
  | .operator => some OPERATOR_SPACE
  | .metadata => none

/-- **C64.** Zero-copy accounts always load: no content of the right length and discriminator is refused. -/
theorem C64_loads (D : Discs Kind) (K : Keys) {k : Kind} {n : Nat} (hn : k.fixedSpace = some n) {data : Bytes}
    (hlen : n ≤ data.length) (hd : data.take 8 = D.of k) : ∃ v, readAccount D K k data = some v := by
  have key : ∀ {m : Nat}, (k.codec K).Total m → n = 8 + m → ∃ v, readAccount D K k data = some v := by
    intro m T e
    have h1 := T (data.drop 8) (by rw [List.length_drop]; omega)
    obtain ⟨x, hx⟩ := Option.isSome_iff_exists.1 h1
    refine ⟨x.1, ?_⟩
    unfold readAccount
    rw [if_pos hd, hx]
    rfl
  cases k <;> simp only [Kind.fixedSpace, Option.some.injEq, reduceCtorEq] at hn
  · exact key (presaleCodec_total K) hn.symm
  · exact key (escrowCodec_total K) hn.symm
  · exact key (fixedPriceArgsCodec_total K) hn.symm
  · exact key (merkleRootConfigCodec_total K) hn.symm
  · exact key (operatorCodec_total K) hn.symm

/-- **C64.** Two different accounts of one type have different bytes. -/
theorem C64_injective {w w' : World} (R : Reachable w) (R' : Reachable w') (hc : w.clock < (2 : Int) ^ 64)
    (hc' : w'.clock < (2 : Int) ^ 64) (D : Discs Kind) {K : Keys} {k : Kind} {a a' : Addr} {v v' : k.Value}
    (h : Stored w k a v) (h' : Stored w' k a' v') (hk : ∀ x ∈ addresses k v, K.known x)
    (hk' : ∀ x ∈ addresses k v', K.known x) (e : writeAccount D K k v = writeAccount D K k v') : v = v' := by
  have h1 := C64_round_trip R hc D h hk []
  have h2 := C64_round_trip R' hc' D h' hk' []
  rw [e, h2] at h1
  exact (Option.some.inj h1).symm

/-- **C64.** The fields leave no gaps: the offsets `repr(C)` gives them are those of the fields laid end to end, the
end is a multiple of the alignment, and it is the reserved space. This holds for both alignments `u128` has had. -/
theorem C64_no_gaps {a : Nat} (ha : a = 8 ∨ a = 16) :
    (reprC (registryShape a) 0 = packed (registryShape a) 0 ∧ (packed (registryShape a) 0).2 = 160 ∧ 160 % a = 0) ∧
    (reprC (presaleShape a) 0 = packed (presaleShape a) 0 ∧ 8 + (packed (presaleShape a) 0).2 = PRESALE_SPACE ∧
      1264 % a = 0) ∧
    (reprC escrowShape 0 = packed escrowShape 0 ∧ 8 + (packed escrowShape 0).2 = ESCROW_SPACE ∧ 192 % a = 0) ∧
    (reprC (fixedArgsShape a) 0 = packed (fixedArgsShape a) 0 ∧
      8 + (packed (fixedArgsShape a) 0).2 = FIXED_ARGS_SPACE ∧ 160 % a = 0) ∧
    (reprC (merkleShape a) 0 = packed (merkleShape a) 0 ∧ 8 + (packed (merkleShape a) 0).2 = MERKLE_SPACE ∧
      144 % a = 0) ∧
    (reprC operatorShape 0 = packed operatorShape 0 ∧ 8 + (packed operatorShape 0).2 = OPERATOR_SPACE ∧
      128 % a = 0) := by
  rcases ha with rfl | rfl <;> decide +kernel


/-! ## The hypotheses can be met -/

/-- A number above those of all plain keys in a list. -/
def keyBound : List Addr → Nat
  | [] => 0
  | .key n :: xs => max (n + 1) (keyBound xs)
  | _ :: xs => keyBound xs

theorem keyBound_lt {xs : List Addr} {n : Nat} (h : Addr.key n ∈ xs) : n < keyBound xs := by
  induction xs with
  | nil => cases h
  | cons x xs ih =>
    rcases List.mem_cons.1 h with e | h
    · subst e; simp only [keyBound]; omega
    · have := ih h
      cases x <;> simp only [keyBound] <;> omega

/-- Addresses as strings: those of `xs` get the first strings, plain keys the others. -/
def Keys.ofList (xs : List Addr) (hx : xs.Nodup) : Keys where
  enc a :=
    if a ∈ xs then leBytes 32 (xs.idxOf a)
    else match a with
      | .key m => leBytes 32 (m - keyBound xs)
      | _ => leBytes 32 0
  dec b := (xs[leNat b]?).getD (.key (keyBound xs + leNat b))
  len a := by
    split
    · exact leBytes_length _ _
    · split <;> exact leBytes_length _ _
  enc_dec b hb := by
    by_cases h : leNat b < xs.length
    · rw [List.getElem?_eq_getElem h, Option.getD_some, if_pos (List.getElem_mem h), List.Nodup.idxOf_getElem hx _ h]
      have := leBytes_leNat b
      rwa [hb] at this
    · rw [List.getElem?_eq_none (by omega), Option.getD_none,
        if_neg (fun hm => by have := keyBound_lt hm; omega)]
      simp only [Nat.add_sub_cancel_left]
      have := leBytes_leNat b
      rwa [hb] at this

theorem Keys.ofList_known {xs : List Addr} (hx : xs.Nodup) (hn : xs.length ≤ 256 ^ 32) {a : Addr} (h : a ∈ xs) :
    (Keys.ofList xs hx).known a := by
  have hi := List.idxOf_lt_length_of_mem h
  show (xs[leNat (if a ∈ xs then leBytes 32 (xs.idxOf a) else _)]?).getD _ = a
  rw [if_pos h, leNat_leBytes 32 _ (Nat.lt_of_lt_of_le hi hn), List.getElem?_eq_getElem hi, Option.getD_some,
    List.getElem_idxOf]

/-- **C64.** The addresses of any account can be given 32-byte strings of their own, so the theorems above apply to
every account of every reachable state. -/
theorem C64_applies (k : Kind) (v : k.Value) : ∃ K : Keys, ∀ x ∈ addresses k v, K.known x := by
  refine ⟨Keys.ofList (addresses k v).dedup (List.nodup_dedup _), fun x hx =>
    Keys.ofList_known _ ?_ (List.mem_dedup.2 hx)⟩
  have h1 : (addresses k v).length ≤ 6 := by cases k <;> simp [addresses]
  have h2 : (addresses k v).dedup.length ≤ (addresses k v).length := (List.dedup_sublist _).length_le
  have h3 : 6 ≤ 256 ^ 32 := by decide +kernel
  omega

/-- Discriminators for the examples. -/
def exampleDiscs : Discs Kind where
  of k := leBytes 8 (match k with
    | .presale => 1 | .escrow => 2 | .fixedArgs => 3 | .merkleRoot => 4 | .operator => 5 | .metadata => 6)
  len _ := leBytes_length _ _
  inj k k' := by cases k <;> cases k' <;> decide +kernel

/-- The addresses of the example ledger. -/
def exampleKeys : Keys :=
  Keys.ofList [Ex.sale, .baseVault Ex.sale, .quoteVault Ex.sale, Ex.creator, Ex.baseKey, Ex.bm, Ex.qm, Ex.alice,
    Ex.bob] (by decide +kernel)

instance (K : Keys) (a : Addr) : Decidable (K.known a) := inferInstanceAs (Decidable (K.dec (K.enc a) = a))

instance (k : Kind) : DecidableEq k.Value := by
  cases k
  · exact inferInstanceAs (DecidableEq Presale)
  · exact inferInstanceAs (DecidableEq Escrow)
  · exact inferInstanceAs (DecidableEq FixedPriceArgs)
  · exact inferInstanceAs (DecidableEq MerkleRootConfig)
  · exact inferInstanceAs (DecidableEq Operator)
  · exact inferInstanceAs (DecidableEq ServerMetadata)

/-- An account takes `n` bytes and is read back from them. -/
def survives (k : Kind) (v : k.Value) (n : Nat) : Bool :=
  decide ((writeAccount exampleDiscs exampleKeys k v).length = n ∧
    readAccount exampleDiscs exampleKeys k (writeAccount exampleDiscs exampleKeys k v) = some v)

/-- The presale and an escrow after two deposits: 1272 and 200 bytes, read back unchanged. -/
example : (match Ex.prorataOpen.presales Ex.sale with
    | some p => survives .presale p 1272
    | none => false) = true := by decide +kernel

example : (match Ex.prorataOpen.escrows.get? (Ex.escrowOf Ex.alice) with
    | some e => survives .escrow e 200
    | none => false) = true := by decide +kernel

/-- `C64_round_trip` applies there. -/
example : ∃ v, Stored Ex.prorataOpen .escrow (Ex.escrowOf Ex.alice) v ∧
    ∀ x ∈ addresses .escrow v, exampleKeys.known x := by
  refine ⟨((Ex.prorataOpen.escrows.get? (Ex.escrowOf Ex.alice)).get (by decide +kernel)), ?_, ?_⟩
  · exact (Option.some_get _).symm
  · decide +kernel

/-- A byte string that is no account of the program at all. -/
example : readAccount exampleDiscs exampleKeys .escrow (List.replicate 200 0) = none := by
  have h : ¬ (List.replicate 200 (0 : UInt8)).take 8 = exampleDiscs.of .escrow := by decide +kernel
  unfold readAccount
  rw [if_neg h]

end Verif
