import Verif.SpecDelay
import Verif.Lemmas.Maps
/-!
# Moving in time
-/

namespace Verif
open Spec

variable {d : Int}

/-! ## Tables -/

theorem delay_upd (f : Addr → Option Presale) (a : Addr) (p : Presale) :
    (fun x => (upd f a (some p) x).map (Presale.delay d)) = upd (fun x => (f x).map (Presale.delay d)) a (some (p.delay d)) := by
  funext x
  unfold upd
  split <;> rfl

theorem delay_get? (m : AMap Addr Escrow) (a : Addr) :
    AMap.get? (m.map fun y => (y.1, y.2.delay d)) a = (AMap.get? m a).map (Escrow.delay d) := by
  induction m with
  | nil => rfl
  | cons x m ih =>
    obtain ⟨k, e⟩ := x
    simp only [List.map_cons, AMap.get?]
    split
    · rfl
    · exact ih

theorem delay_set (m : AMap Addr Escrow) (a : Addr) (e : Escrow) :
    (AMap.set m a e).map (fun y => (y.1, y.2.delay d)) = AMap.set (m.map fun y => (y.1, y.2.delay d)) a (e.delay d) := by
  induction m with
  | nil => rfl
  | cons x m ih =>
    obtain ⟨k, e⟩ := x
    simp only [List.map_cons, AMap.set]
    split
    · rfl
    · rw [List.map_cons, ih]

theorem delay_erase (m : AMap Addr Escrow) (a : Addr) :
    (AMap.erase m a).map (fun y => (y.1, y.2.delay d)) = AMap.erase (m.map fun y => (y.1, y.2.delay d)) a := by
  induction m with
  | nil => rfl
  | cons x m ih =>
    obtain ⟨k, e⟩ := x
    simp only [List.map_cons, AMap.erase]
    split
    · rfl
    · rw [List.map_cons, ih]

theorem delay_presale {w : World} {a : Addr} {p : Presale} (h : w.presales a = some p) :
    (w.delay d).presales a = some (p.delay d) := by
  show (w.presales a).map _ = _
  rw [h]; rfl

theorem delay_presale_none {w : World} {a : Addr} (h : w.presales a = none) : (w.delay d).presales a = none := by
  show (w.presales a).map _ = _
  rw [h]; rfl

theorem delay_escrow {w : World} {a : Addr} {e : Escrow} (h : w.escrows.get? a = some e) :
    (w.delay d).escrows.get? a = some (e.delay d) := by
  show AMap.get? (w.escrows.map _) a = _
  rw [delay_get?, h]; rfl

theorem delay_escrow_none {w : World} {a : Addr} (h : w.escrows.get? a = none) : (w.delay d).escrows.get? a = none := by
  show AMap.get? (w.escrows.map _) a = _
  rw [delay_get?, h]; rfl

/-! ## Dates -/

/-- The dates of a sale can be moved by `d`. -/
structure Movable (d : Int) (p : Presale) : Prop where
  fin : 0 < p.presaleEndTime ∧ 0 < p.presaleEndTime + d
  start : 0 ≤ p.presaleStartTime + d
  imm : p.immediateReleaseTimestamp = 0 ∨ 0 < p.immediateReleaseTimestamp + d
  vest : p.vestingStartTime = 0 ∨ 0 < p.vestingStartTime + d
  none : p.vestingStartTime = 0 → p.vestDuration = 0

theorem moved_int {t : Nat} (h : 0 ≤ (t : Int) + d) : ((moved d t : Nat) : Int) = t + d := by
  unfold moved; omega

theorem moved_clock {c : Int} (h : 0 ≤ c) : moved d c.toNat = (c + d).toNat := by
  unfold moved; congr 1; omega

theorem delay_over {p : Presale} {c : Int} (M : Movable d p) : Over (p.delay d) (c + d) ↔ Over p c := by
  unfold Over
  have h : (((p.delay d).presaleEndTime : Nat) : Int) = p.presaleEndTime + d :=
    moved_int (Int.le_of_lt M.fin.2)
  rw [h]; omega

theorem delay_ongoing {p : Presale} {c : Int} (M : Movable d p) : Ongoing (p.delay d) (c + d) ↔ Ongoing p c := by
  unfold Ongoing
  have h : (((p.delay d).presaleEndTime : Nat) : Int) = p.presaleEndTime + d :=
    moved_int (Int.le_of_lt M.fin.2)
  have h' : (((p.delay d).presaleStartTime : Nat) : Int) = p.presaleStartTime + d := moved_int M.start
  rw [h, h']; omega

theorem delay_completed {p : Presale} {c : Int} (M : Movable d p) :
    Completed (p.delay d) (c + d) ↔ Completed p c := and_congr_left' (delay_over M)

theorem delay_failed {p : Presale} {c : Int} (M : Movable d p) : Failed (p.delay d) (c + d) ↔ Failed p c :=
  and_congr_left' (delay_over M)

theorem delay_claimable {p : Presale} {r : Registry} {e : Escrow} {c : Int} (M : Movable d p) (hc : Over p c) :
    claimableAt (p.delay d) r (e.delay d) (c + d).toNat = claimableAt p r e c.toNat := by
  have hf := M.fin
  unfold Over at hc
  have h0 : 0 ≤ c + d := by omega
  have himm : movedDate d p.immediateReleaseTimestamp ≤ (c + d).toNat ↔ p.immediateReleaseTimestamp ≤ c.toNat := by
    have := M.imm
    unfold movedDate moved
    split <;> omega
  have hdrip : ∀ v, dripped v (movedDate d p.vestingStartTime) p.vestDuration (c + d).toNat =
      dripped v p.vestingStartTime p.vestDuration c.toNat := by
    intro v
    unfold dripped
    rcases Nat.eq_zero_or_pos p.vestingStartTime with hz | hz
    · have e : movedDate d p.vestingStartTime = 0 := by unfold movedDate; rw [if_pos hz]
      rw [e, hz, if_neg (Nat.not_lt_zero _), if_neg (Nat.not_lt_zero _), if_pos (M.none hz), if_pos (M.none hz)]
    · have hv := M.vest
      have e : movedDate d p.vestingStartTime = moved d p.vestingStartTime := if_neg (by omega)
      rw [e]
      have e1 : (c + d).toNat < moved d p.vestingStartTime ↔ c.toNat < p.vestingStartTime := by
        unfold moved; omega
      by_cases ht : c.toNat < p.vestingStartTime
      · rw [if_pos ht, if_pos (e1.2 ht)]
      · rw [if_neg ht, if_neg (fun h => ht (e1.1 h))]
        have e2 : (c + d).toNat - moved d p.vestingStartTime = c.toNat - p.vestingStartTime := by
          unfold moved; omega
        rw [e2]
  show claimable p.immediateReleaseBps (movedDate d p.immediateReleaseTimestamp) (sold p r)
    (movedDate d p.vestingStartTime) p.vestDuration (c + d).toNat e.totalDeposit r.totalDeposit = _
  unfold claimableAt claimable
  rw [hdrip]
  simp only [himm]

/-! ## Instructions -/

theorem delay_initFixedArgs {w w' : World} {tx : Tx} {a : InitFixedArgsAcc} (h : DoesInitFixedArgs w tx a w') :
    DoesInitFixedArgs (w.delay d) tx a (w'.delay d) :=
  ⟨h.signed, h.price, h.flag, h.fresh, by rw [h.post]; rfl⟩

theorem delay_closeFixedArgs {w w' : World} {tx : Tx} {a : CloseFixedArgsAcc} {c : FixedPriceArgs}
    (h : DoesCloseFixedArgs w tx a w' c) : DoesCloseFixedArgs (w.delay d) tx a (w'.delay d) c :=
  ⟨h.account, h.signed, by rw [h.post]; rfl⟩

/-- The dates asked for can be moved by `d`. -/
theorem terms_movable {now : Nat} {q : Option Nat} {x : InitializePresaleArgs} (T : Terms now q x) (hd : 0 < (now : Int) + d) :
    0 < (x.presaleParams.presaleEndTime : Int) + d ∧
    (x.lockedVestingParams.immediateReleaseTimestamp = 0 ∨ 0 < (x.lockedVestingParams.immediateReleaseTimestamp : Int) + d) := by
  have h1 := T.duration.1
  have h2 := T.release
  unfold ReleaseTerms at h2
  omega

theorem delay_terms {now : Nat} {q : Option Nat} {x : InitializePresaleArgs} (T : Terms now q x)
    (hd : 0 < (now : Int) + d) (hr : (now : Int) + d < 2 ^ 62) : Terms (moved d now) q (x.delay d) := by
  obtain ⟨m1, m2⟩ := terms_movable T hd
  have hdur := T.duration
  have hahead := T.ahead
  have hrel := T.release
  have hfit := T.releaseFit
  have e1 : moved d x.presaleParams.presaleEndTime = ((x.presaleParams.presaleEndTime : Int) + d).toNat := rfl
  have e2 : moved d x.presaleParams.presaleStartTime = ((x.presaleParams.presaleStartTime : Int) + d).toNat := rfl
  have e3 : moved d now = ((now : Int) + d).toNat := rfl
  have e4 : (x.lockedVestingParams.immediateReleaseTimestamp = 0 ∧
        movedDate d x.lockedVestingParams.immediateReleaseTimestamp = 0) ∨
      (0 < x.lockedVestingParams.immediateReleaseTimestamp ∧
        movedDate d x.lockedVestingParams.immediateReleaseTimestamp =
          ((x.lockedVestingParams.immediateReleaseTimestamp : Int) + d).toNat) := by
    unfold movedDate moved
    rcases Nat.eq_zero_or_pos x.lockedVestingParams.immediateReleaseTimestamp with h | h
    · exact .inl ⟨h, if_pos h⟩
    · exact .inr ⟨h, if_neg (by omega)⟩
  unfold ReleaseTerms at hrel
  constructor
  · exact T.capsFit
  · show moved d _ < _ ∧ moved d _ < _
    rw [e1, e2]; omega
  · exact T.bytesFit
  · refine ⟨hfit.1, hfit.2.1, ?_⟩
    show movedDate d _ < _
    omega
  · exact T.caps
  · show moved d _ ≤ moved d _ + _
    rw [e2, e3]; omega
  · show max (moved d _) (moved d _) + 60 ≤ moved d _ ∧ moved d _ ≤ max (moved d _) (moved d _) + _
    rw [e1, e2, e3]; omega
  · exact T.whitelist
  · exact T.mode
  · exact T.flag
  · exact T.count
  · exact T.several
  · intro r hr
    exact { (T.registries r hr) with }
  · exact T.supply
  · show ReleaseTerms { x.lockedVestingParams with
      immediateReleaseTimestamp := movedDate d x.lockedVestingParams.immediateReleaseTimestamp }
      (moved d x.presaleParams.presaleEndTime)
    unfold ReleaseTerms
    dsimp only
    rw [e1]
    rcases hrel with ⟨a1, a2, a3, a4, a5⟩ | ⟨a1, a2, a3⟩
    · exact .inl ⟨a1, a2, a3, by omega, a5⟩
    · refine .inr ⟨a1, by omega, ?_⟩
      rcases a3 with ⟨b1, b2, b3, b4⟩ | ⟨b1, b2, b3⟩
      · exact .inl ⟨b1, b2, b3, by omega⟩
      · exact .inr ⟨b1, b2, by omega⟩
  · exact T.price

theorem delay_newSale {a : InitPresaleAcc} {c : Option FixedPriceArgs} {q : Option Nat} {now : Nat}
    (T : Terms now q a.args) (hd : 0 < (now : Int) + d) :
    newSale (a.delay d) c (moved d now) = (newSale a c now).delay d := by
  obtain ⟨m1, m2⟩ := terms_movable T hd
  have hdur := T.duration
  have hu : Unreleased (a.delay d).args.lockedVestingParams ↔ Unreleased a.args.lockedVestingParams := by
    show _ ∧ _ ∧ _ ∧ movedDate d a.args.lockedVestingParams.immediateReleaseTimestamp = 0 ∧ _ ↔ _
    have : movedDate d a.args.lockedVestingParams.immediateReleaseTimestamp = 0 ↔
        a.args.lockedVestingParams.immediateReleaseTimestamp = 0 := by
      unfold movedDate moved
      split <;> omega
    rw [this]; rfl
  have hmax : max (moved d a.args.presaleParams.presaleStartTime) (moved d now) =
      moved d (max a.args.presaleParams.presaleStartTime now) := by
    unfold moved; omega
  have h1 : (if Unreleased (a.delay d).args.lockedVestingParams then 0
      else moved d a.args.presaleParams.presaleEndTime + a.args.lockedVestingParams.lockDuration) =
      movedDate d (if Unreleased a.args.lockedVestingParams then 0
        else a.args.presaleParams.presaleEndTime + a.args.lockedVestingParams.lockDuration) := by
    by_cases h : Unreleased a.args.lockedVestingParams
    · rw [if_pos h, if_pos (hu.2 h)]; rfl
    · rw [if_neg h, if_neg (fun x => h (hu.1 x))]
      unfold movedDate moved
      split <;> omega
  have h2 : (if Unreleased (a.delay d).args.lockedVestingParams then 0
      else moved d a.args.presaleParams.presaleEndTime + a.args.lockedVestingParams.lockDuration +
        a.args.lockedVestingParams.vestDuration) =
      movedDate d (if Unreleased a.args.lockedVestingParams then 0
        else a.args.presaleParams.presaleEndTime + a.args.lockedVestingParams.lockDuration +
          a.args.lockedVestingParams.vestDuration) := by
    by_cases h : Unreleased a.args.lockedVestingParams
    · rw [if_pos h, if_pos (hu.2 h)]; rfl
    · rw [if_neg h, if_neg (fun x => h (hu.1 x))]
      unfold movedDate moved
      split <;> omega
  show Presale.mk _ _ _ _ _ _ _ _ _ _ _ _ _ _ _ _ _ _ _ _ _ _ _ _ _ _ _ _ _ _ _ _ _ _ _ _ = _
  unfold newSale Presale.delay
  dsimp only
  rw [← hmax, ← h1, ← h2]
  rfl

theorem delay_initPresale {w w' : World} {tx : Tx} {a : InitPresaleAcc} {c : Option FixedPriceArgs} {left : List Addr}
    {bm qm : MintInfo} {src : TokAcct} {gross : Nat} (h0 : 0 < w.clock + d) (h1 : w.clock + d < 2 ^ 62)
    (h : DoesInitPresale w tx a w' c left bm qm src gross) :
    DoesInitPresale (w.delay d) tx (a.delay d) (w'.delay d) c left bm qm src gross := by
  have C := h.creatable
  have hc := C.clock
  have ec : moved d w.clock.toNat = (w.clock + d).toNat := moved_clock hc
  have hd : 0 < (w.clock.toNat : Int) + d := by omega
  have hr : (w.clock.toNat : Int) + d < 2 ^ 62 := by omega
  constructor
  · exact
      { signed := C.signed
        fresh := ⟨delay_presale_none C.fresh.1, C.fresh.2⟩
        clock := Int.le_of_lt h0
        baseMint := C.baseMint
        quoteMint := C.quoteMint
        priced := C.priced
        terms := by
          show Terms (w.clock + d).toNat _ _
          rw [← ec]; exact delay_terms C.terms hd hr
        source := C.source
        gross := C.gross
        accepted := C.accepted
        slices := C.slices
        hooks := C.hooks }
  · exact h.priced
  · exact h.least
  · rw [h.post]
    show World.mk _ _ _ _ _ _ _ _ _ = World.mk _ _ _ _ _ _ _ _ _
    congr 1
    rw [delay_upd]
    show _ = upd _ _ (some (newSale (a.delay d) c (w.clock + d).toNat))
    rw [← ec, delay_newSale C.terms hd]
    rfl

theorem delay_createMerkle {w w' : World} {tx : Tx} {a : CreateMerkleAcc} {p : Presale} (M : Movable d p)
    (h : DoesCreateMerkle w tx a w' p) : DoesCreateMerkle (w.delay d) tx a (w'.delay d) (p.delay d) where
  presale := ⟨delay_presale h.presale.1, h.presale.2⟩
  signed := h.signed
  fits := h.fits
  fresh := h.fresh
  notOver := fun o => h.notOver ((delay_over M).1 o)
  mode := h.mode
  post := by rw [h.post]; rfl

theorem delay_closeMerkle {w w' : World} {tx : Tx} {a : CloseMerkleAcc} {p : Presale} {c : MerkleRootConfig}
    (M : Movable d p) (h : DoesCloseMerkle w tx a w' p c) : DoesCloseMerkle (w.delay d) tx a (w'.delay d) (p.delay d) c where
  presale := ⟨delay_presale h.presale.1, h.presale.2⟩
  account := h.account
  receiver := h.receiver
  signed := h.signed
  phase := fun o => h.phase ((delay_ongoing M).1 o)
  post := by rw [h.post]; rfl

theorem delay_createOperator {w w' : World} {tx : Tx} {a : CreateOperatorAcc} (h : DoesCreateOperator w tx a w') :
    DoesCreateOperator (w.delay d) tx a (w'.delay d) :=
  ⟨h.signed, h.fresh, by rw [h.post]; rfl⟩

theorem delay_revokeOperator {w w' : World} {tx : Tx} {a : RevokeOperatorAcc} {o : Operator}
    (h : DoesRevokeOperator w tx a w' o) : DoesRevokeOperator (w.delay d) tx a (w'.delay d) o :=
  ⟨h.account, h.signed, by rw [h.post]; rfl⟩

theorem delay_createMetadata {w w' : World} {tx : Tx} {a : CreateMetadataAcc} {p : Presale} (M : Movable d p)
    (h : DoesCreateMetadata w tx a w' p) : DoesCreateMetadata (w.delay d) tx a (w'.delay d) (p.delay d) where
  presale := ⟨delay_presale h.presale.1, h.presale.2⟩
  signed := h.signed
  text := h.text
  fresh := h.fresh
  mode := h.mode
  notOver := fun o => h.notOver ((delay_over M).1 o)
  post := by rw [h.post]; rfl

theorem delay_closeMetadata {w w' : World} {tx : Tx} {a : CloseMetadataAcc} {p : Presale} {c : ServerMetadata}
    (h : DoesCloseMetadata w tx a w' p c) : DoesCloseMetadata (w.delay d) tx a (w'.delay d) (p.delay d) c where
  presale := ⟨delay_presale h.presale.1, h.presale.2⟩
  account := h.account
  receiver := h.receiver
  signed := h.signed
  post := by rw [h.post]; rfl

theorem ongoing_clock {p : Presale} {c : Int} (h : Ongoing p c) : 0 ≤ c := by
  unfold Ongoing at h; omega

theorem over_clock {p : Presale} {c : Int} (h : Over p c) : 0 ≤ c := by
  unfold Over at h; omega

theorem delay_opens {w w' : World} {key owner : Addr} {i cap : Nat} {p : Presale} {r : Registry} (M : Movable d p)
    (h : Opens w key owner i cap w' p r) : Opens (w.delay d) key owner i cap (w'.delay d) (p.delay d) r where
  presale := delay_presale h.presale
  registry := h.registry
  ongoing := (delay_ongoing M).2 h.ongoing
  fresh := delay_escrow_none h.fresh
  countable := h.countable
  post := by
    rw [h.post]
    show World.mk _ _ _ _ _ _ _ _ _ = World.mk _ _ _ _ _ _ _ _ _
    congr 1
    · rw [delay_upd]; rfl
    · rw [delay_set]
      show AMap.set _ _ (Escrow.mk _ _ _ _ _ _ _ _ (moved d w.clock.toNat) _ (moved d w.clock.toNat)) = _
      rw [moved_clock (ongoing_clock h.ongoing)]
      rfl

theorem delay_createEscrow {w w' : World} {tx : Tx} {a : CreateEscrowAcc} {p : Presale} {r : Registry} (M : Movable d p)
    (h : DoesCreateEscrow w tx a w' p r) : DoesCreateEscrow (w.delay d) tx a (w'.delay d) (p.delay d) r :=
  ⟨h.signed, h.mode, delay_opens M h.opens⟩

theorem delay_createEscrowCreator {w w' : World} {tx : Tx} {a : CreateEscrowCreatorAcc} {p : Presale} {r : Registry}
    {o : Operator} (M : Movable d p) (h : DoesCreateEscrowCreator w tx a w' p r o) :
    DoesCreateEscrowCreator (w.delay d) tx a (w'.delay d) (p.delay d) r o :=
  ⟨h.signed, h.mode, h.operator, h.cap, delay_opens M h.opens⟩

theorem delay_createEscrowMerkle {w w' : World} {tx : Tx} {a : CreateEscrowMerkleAcc} {p : Presale} {r : Registry}
    {c : MerkleRootConfig} (M : Movable d p) (h : DoesCreateEscrowMerkle w tx a w' p r c) :
    DoesCreateEscrowMerkle (w.delay d) tx a (w'.delay d) (p.delay d) r c :=
  ⟨h.signed, h.mode, h.root, h.fits, h.listed, h.cap, delay_opens M h.opens⟩

theorem delay_afterDeposit {p : Presale} {i : Nat} {r : Registry} {n fee : Nat} {c : Int} (M : Movable d p)
    (hc : 0 < c) (h0 : 0 < c + d) :
    afterDeposit (p.delay d) i r n fee (c + d).toNat = (afterDeposit p i r n fee c.toNat).delay d := by
  unfold afterDeposit
  dsimp only
  by_cases h : EarlyEndAllowed p ∧ p.presaleMaximumCap ≤ p.totalDeposit + n
  · have h' : EarlyEndAllowed (p.delay d) ∧ (p.delay d).presaleMaximumCap ≤ (p.delay d).totalDeposit + n := h
    rw [if_pos h, if_pos h']
    have e1 : (c + d).toNat = moved d c.toNat := (moved_clock (Int.le_of_lt hc)).symm
    have e2 : (c + d).toNat + p.lockDuration = movedDate d (c.toNat + p.lockDuration) := by
      unfold movedDate moved; rw [if_neg (by omega)]; omega
    have e3 : (c + d).toNat + p.lockDuration + p.vestDuration =
        movedDate d (c.toNat + p.lockDuration + p.vestDuration) := by
      unfold movedDate moved; rw [if_neg (by omega)]; omega
    have e4 : (c + d).toNat + (movedDate d p.immediateReleaseTimestamp - moved d p.presaleEndTime) =
        movedDate d (c.toNat + (p.immediateReleaseTimestamp - p.presaleEndTime)) := by
      have := M.imm
      have := M.fin
      unfold movedDate moved; rw [if_neg (by omega : ¬ c.toNat + _ = 0)]; split <;> omega
    unfold Presale.delay
    dsimp only
    rw [← e2, ← e3, ← e4, ← e1]
  · have h' : ¬ (EarlyEndAllowed (p.delay d) ∧ (p.delay d).presaleMaximumCap ≤ (p.delay d).totalDeposit + n) := h
    rw [if_neg h, if_neg h']; rfl

theorem delay_deposit {w w' : World} {tx : Tx} {a : DepositAcc} {p : Presale} {e : Escrow} {r : Registry} {m : MintInfo}
    {n fee gross : Nat} {k' : Tokens} (M : Movable d p) (hc : 0 < w.clock) (h0 : 0 < w.clock + d)
    (h : DoesDeposit w tx a w' p e r m n fee gross k') :
    DoesDeposit (w.delay d) tx a (w'.delay d) (p.delay d) (e.delay d) r m n fee gross k' where
  presale := delay_presale h.presale
  escrow := ⟨delay_escrow h.escrow.1, h.escrow.2⟩
  registry := h.registry
  accounts := h.accounts
  signed := h.signed
  fits := h.fits
  ongoing := (delay_ongoing M).2 h.ongoing
  priced := h.priced
  taken := h.taken
  minimum := h.minimum
  mint := h.mint
  charge := h.charge
  hooks := h.hooks
  payment := h.payment
  post := by
    rw [h.post]
    show World.mk _ _ _ _ _ _ _ _ _ = World.mk _ _ _ _ _ _ _ _ _
    congr 1
    · rw [delay_upd, ← delay_afterDeposit M hc h0]; rfl
    · rw [delay_set]; rfl

theorem delay_withdraw {w w' : World} {tx : Tx} {a : WithdrawAcc} {p : Presale} {e : Escrow} {r : Registry}
    {n : Nat} {k' : Tokens} (M : Movable d p) (h : DoesWithdraw w tx a w' p e r n k') :
    DoesWithdraw (w.delay d) tx a (w'.delay d) (p.delay d) (e.delay d) r n k' where
  presale := delay_presale h.presale
  escrow := ⟨delay_escrow h.escrow.1, h.escrow.2⟩
  registry := h.registry
  accounts := h.accounts
  signed := h.signed
  fits := h.fits
  ongoing := (delay_ongoing M).2 h.ongoing
  allowed := h.allowed
  asked := h.asked
  taken := h.taken
  minimum := h.minimum
  hooks := h.hooks
  payment := h.payment
  post := by
    rw [h.post]
    show World.mk _ _ _ _ _ _ _ _ _ = World.mk _ _ _ _ _ _ _ _ _
    congr 1
    · rw [delay_upd]; rfl
    · rw [delay_set]; rfl

theorem delay_claim {w w' : World} {tx : Tx} {a : ClaimAcc} {p : Presale} {e : Escrow} {r : Registry}
    {n : Nat} {k' : Tokens} (M : Movable d p) (h : DoesClaim w tx a w' p e r n k') :
    DoesClaim (w.delay d) tx a (w'.delay d) (p.delay d) (e.delay d) r n k' where
  presale := delay_presale h.presale
  escrow := ⟨delay_escrow h.escrow.1, h.escrow.2⟩
  registry := h.registry
  accounts := h.accounts
  signed := h.signed
  fits := h.fits
  completed := (delay_completed M).2 h.completed
  account := h.account
  due := by
    show n = claimableAt (p.delay d) r (e.delay d) (w.clock + d).toNat - e.totalClaimedToken
    rw [delay_claimable M h.completed.1]; exact h.due
  nothing := h.nothing
  payment := h.payment
  post := by
    rw [h.post]
    show World.mk _ _ _ _ _ _ _ _ _ = World.mk _ _ _ _ _ _ _ _ _
    congr 1
    · rw [delay_upd]; rfl
    · rw [delay_set]
      show AMap.set _ _ (Escrow.mk _ _ _ _ _ _ _ _ _ _ (moved d w.clock.toNat)) = _
      rw [moved_clock (over_clock h.completed.1)]; rfl

theorem delay_refresh {w w' : World} {a : RefreshAcc} {p : Presale} {e : Escrow} {r : Registry} {e' : Escrow}
    (M : Movable d p) (h : DoesRefresh w a w' p e r e') :
    DoesRefresh (w.delay d) a (w'.delay d) (p.delay d) (e.delay d) r (e'.delay d) where
  presale := delay_presale h.presale
  escrow := ⟨delay_escrow h.escrow.1, h.escrow.2⟩
  registry := h.registry
  early := fun hn => congrArg _ (h.early fun c => hn ((delay_completed M).2 c))
  completed := fun hc => by
    have hc := (delay_completed M).1 hc
    rw [h.completed hc]
    show Escrow.mk _ _ _ _ _ _ _ _ _ _ (moved d w.clock.toNat) = Escrow.mk _ _ _ _ _ _
      (claimableAt (p.delay d) r (e.delay d) (w.clock + d).toNat - e.totalClaimedToken) _ _ _ _
    rw [delay_claimable M hc.1, moved_clock (over_clock hc.1)]
    rfl
  post := by
    rw [h.post]
    show World.mk _ _ _ _ _ _ _ _ _ = World.mk _ _ _ _ _ _ _ _ _
    congr 1
    rw [delay_set]; rfl

theorem delay_refund {w w' : World} {tx : Tx} {a : RefundAcc} {p : Presale} {e : Escrow} {r : Registry}
    {n : Nat} {k' : Tokens} (M : Movable d p) (h : DoesRefund w tx a w' p e r n k') :
    DoesRefund (w.delay d) tx a (w'.delay d) (p.delay d) (e.delay d) r n k' where
  presale := delay_presale h.presale
  escrow := ⟨delay_escrow h.escrow.1, h.escrow.2⟩
  registry := h.registry
  accounts := h.accounts
  signed := h.signed
  fits := h.fits
  phase := h.phase.imp (delay_failed M).2 (And.imp_left (delay_completed M).2)
  first := h.first
  account := h.account
  due := h.due
  readable := h.readable
  nothing := h.nothing
  payment := h.payment
  post := by
    rw [h.post]
    show World.mk _ _ _ _ _ _ _ _ _ = World.mk _ _ _ _ _ _ _ _ _
    congr 1
    · rw [delay_upd]; rfl
    · rw [delay_set]; rfl

theorem delay_closeEscrow {w w' : World} {tx : Tx} {a : CloseEscrowAcc} {p : Presale} {e : Escrow} {r : Registry}
    (M : Movable d p) (h : DoesCloseEscrow w tx a w' p e r) :
    DoesCloseEscrow (w.delay d) tx a (w'.delay d) (p.delay d) (e.delay d) r where
  presale := delay_presale h.presale
  escrow := ⟨delay_escrow h.escrow.1, h.escrow.2⟩
  registry := h.registry
  receiver := h.receiver
  signed := h.signed
  empty := fun hn => h.empty fun c => hn ((delay_over M).2 c)
  settled := fun o => h.settled ((delay_over M).1 o)
  claimed := fun o => h.claimed ((delay_completed M).1 o)
  post := by
    rw [h.post]
    show World.mk _ _ _ _ _ _ _ _ _ = World.mk _ _ _ _ _ _ _ _ _
    congr 1
    · rw [delay_upd]; rfl
    · rw [delay_erase]; rfl

theorem delay_creatorWithdraw {w w' : World} {tx : Tx} {a : CreatorWithdrawAcc} {p : Presale} {kind : AccountsType}
    {mint vault : Addr} {n : Nat} {left : List Addr} {k' : Tokens} (M : Movable d p)
    (h : DoesCreatorWithdraw w tx a w' p kind mint vault n left k') :
    DoesCreatorWithdraw (w.delay d) tx a (w'.delay d) (p.delay d) kind mint vault n left k' where
  presale := ⟨delay_presale h.presale.1, h.presale.2⟩
  signed := h.signed
  fits := h.fits
  gets := h.gets.imp (And.imp_left (delay_completed M).2) (And.imp_left (delay_failed M).2)
  first := h.first
  accounts := h.accounts
  hooks := h.hooks
  payment := h.payment
  post := by
    rw [h.post]
    show World.mk _ _ _ _ _ _ _ _ _ = World.mk _ _ _ _ _ _ _ _ _
    congr 1
    rw [delay_upd]; rfl

theorem delay_collectFee {w w' : World} {tx : Tx} {a : CollectFeeAcc} {p : Presale} {k' : Tokens} (M : Movable d p)
    (h : DoesCollectFee w tx a w' p k') : DoesCollectFee (w.delay d) tx a (w'.delay d) (p.delay d) k' where
  presale := ⟨delay_presale h.presale.1, h.presale.2⟩
  signed := h.signed
  fits := h.fits
  accounts := h.accounts
  account := h.account
  completed := (delay_completed M).2 h.completed
  first := h.first
  nothing := h.nothing
  payment := h.payment
  post := by
    rw [h.post]
    show World.mk _ _ _ _ _ _ _ _ _ = World.mk _ _ _ _ _ _ _ _ _
    congr 1
    rw [delay_upd]; rfl

theorem delay_unsold {w w' : World} {tx : Tx} {a : UnsoldAcc} {p : Presale} {t : TokAcct} {k' : Tokens}
    (M : Movable d p) (h : DoesUnsold w tx a w' p t k') :
    DoesUnsold (w.delay d) tx a (w'.delay d) (p.delay d) t k' where
  presale := delay_presale h.presale
  fits := h.fits
  accounts := h.accounts
  account := h.account
  completed := (delay_completed M).2 h.completed
  first := h.first
  left := h.left
  burn := h.burn
  refund := h.refund
  post := by
    rw [h.post]
    show World.mk _ _ _ _ _ _ _ _ _ = World.mk _ _ _ _ _ _ _ _ _
    congr 1
    rw [delay_upd]; rfl

/-- What the program does, it does at another time. -/
theorem delay_does {w w' : World} {tx : Tx} {i : Ix} (M : ∀ a p, w.presales a = some p → Movable d p)
    (hc : 0 < w.clock) (h0 : 0 < w.clock + d) (h1 : w.clock + d < 2 ^ 62) (h : Does w tx i w') :
    Does (w.delay d) tx (i.delay d) (w'.delay d) := by
  cases i with
  | initFixedArgs a => exact delay_initFixedArgs h
  | closeFixedArgs a => obtain ⟨_, h⟩ := h; exact ⟨_, delay_closeFixedArgs h⟩
  | initPresale a => obtain ⟨_, _, _, _, _, _, h⟩ := h; exact ⟨_, _, _, _, _, _, delay_initPresale h0 h1 h⟩
  | createMerkle a => obtain ⟨_, h⟩ := h; exact ⟨_, delay_createMerkle (M _ _ h.presale.1) h⟩
  | closeMerkle a => obtain ⟨_, _, h⟩ := h; exact ⟨_, _, delay_closeMerkle (M _ _ h.presale.1) h⟩
  | createEscrow a => obtain ⟨_, _, h⟩ := h; exact ⟨_, _, delay_createEscrow (M _ _ h.opens.presale) h⟩
  | createEscrowCreator a =>
    obtain ⟨_, _, _, h⟩ := h; exact ⟨_, _, _, delay_createEscrowCreator (M _ _ h.opens.presale) h⟩
  | createEscrowMerkle a =>
    obtain ⟨_, _, _, h⟩ := h; exact ⟨_, _, _, delay_createEscrowMerkle (M _ _ h.opens.presale) h⟩
  | createOperator a => exact delay_createOperator h
  | revokeOperator a => obtain ⟨_, h⟩ := h; exact ⟨_, delay_revokeOperator h⟩
  | deposit a =>
    obtain ⟨_, _, _, _, _, _, _, _, h⟩ := h
    exact ⟨_, _, _, _, _, _, _, _, delay_deposit (M _ _ h.presale) hc h0 h⟩
  | withdraw a => obtain ⟨_, _, _, _, _, h⟩ := h; exact ⟨_, _, _, _, _, delay_withdraw (M _ _ h.presale) h⟩
  | claim a => obtain ⟨_, _, _, _, _, h⟩ := h; exact ⟨_, _, _, _, _, delay_claim (M _ _ h.presale) h⟩
  | refund a => obtain ⟨_, _, _, _, _, h⟩ := h; exact ⟨_, _, _, _, _, delay_refund (M _ _ h.presale) h⟩
  | unsold a => obtain ⟨_, _, _, h⟩ := h; exact ⟨_, _, _, delay_unsold (M _ _ h.presale) h⟩
  | closeEscrow a => obtain ⟨_, _, _, h⟩ := h; exact ⟨_, _, _, delay_closeEscrow (M _ _ h.presale) h⟩
  | creatorWithdraw a =>
    obtain ⟨_, _, _, _, _, _, _, h⟩ := h
    exact ⟨_, _, _, _, _, _, _, delay_creatorWithdraw (M _ _ h.presale.1) h⟩
  | refresh a => obtain ⟨_, _, _, _, h⟩ := h; exact ⟨_, _, _, _, delay_refresh (M _ _ h.presale) h⟩
  | createMetadata a => obtain ⟨_, h⟩ := h; exact ⟨_, delay_createMetadata (M _ _ h.presale.1) h⟩
  | closeMetadata a => obtain ⟨_, _, h⟩ := h; exact ⟨_, _, delay_closeMetadata h⟩
  | collectFee a => obtain ⟨_, _, h⟩ := h; exact ⟨_, _, delay_collectFee (M _ _ h.presale.1) h⟩

end Verif
