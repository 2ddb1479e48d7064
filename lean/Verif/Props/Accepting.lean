import Verif.Lemmas.AcceptInit
import Verif.Props.Creation
/-!
# Exactly when instructions are accepted

C71: a presale can be created if and only if its terms are acceptable, its accounts are fresh and the payer
can be charged the supply.
-/

namespace Verif
open Spec

theorem CanSpend.mono {t : TokAcct} {who : Addr} {n n' : Nat} (h : CanSpend t who n) (hn : n' ≤ n) :
    CanSpend t who n' := by
  rcases h with ⟨k, h1, h2⟩ | h
  · exact Or.inl ⟨k, h1, by omega⟩
  · exact Or.inr h

theorem inRange_iff {a : InitializePresaleArgs} : a.inRange = true ↔
    ((a.presaleParams.presaleMaximumCap < 2 ^ 64 ∧ a.presaleParams.presaleMinimumCap < 2 ^ 64 ∧
      a.presaleParams.presaleStartTime < 2 ^ 64 ∧ a.presaleParams.presaleEndTime < 2 ^ 64) ∧
     (a.presaleParams.whitelistMode < 2 ^ 8 ∧ a.presaleParams.presaleMode < 2 ^ 8 ∧
      a.presaleParams.unsoldTokenAction < 2 ^ 8 ∧
      a.presaleParams.disableEarlierPresaleEndOnceCapReached < 2 ^ 8) ∧
     (a.lockedVestingParams.immediatelyReleaseBps < 2 ^ 16 ∧ a.lockedVestingParams.lockDuration < 2 ^ 64 ∧
      a.lockedVestingParams.vestDuration < 2 ^ 64 ∧ a.lockedVestingParams.immediateReleaseTimestamp < 2 ^ 64) ∧
     a.presaleRegistries.length < 2 ^ 32 ∧
     ∀ r ∈ a.presaleRegistries, r.buyerMinimumDepositCap < 2 ^ 64 ∧ r.buyerMaximumDepositCap < 2 ^ 64 ∧
      r.presaleSupply < 2 ^ 64 ∧ r.depositFeeBps < 2 ^ 16) := by
  unfold InitializePresaleArgs.inRange
  simp only [Bool.and_eq_true, decide_eq_true_eq, List.all_eq_true, u64Bound_eq, u32Bound_eq, u16Bound_eq,
    u8Bound_eq]
  constructor
  · rintro ⟨⟨⟨⟨⟨⟨⟨⟨⟨⟨⟨⟨⟨h1, h2⟩, h3⟩, h4⟩, h5⟩, h6⟩, h7⟩, h8⟩, h9⟩, h10⟩, h11⟩, h12⟩, h13⟩, h14⟩
    exact ⟨⟨h1, h2, h3, h4⟩, ⟨h5, h6, h7, h8⟩, ⟨h9, h10, h11, h12⟩, h13, fun r hr =>
      ⟨(h14 r hr).1.1.1, (h14 r hr).1.1.2, (h14 r hr).1.2, (h14 r hr).2⟩⟩
  · rintro ⟨⟨h1, h2, h3, h4⟩, ⟨h5, h6, h7, h8⟩, ⟨h9, h10, h11, h12⟩, h13, h14⟩
    exact ⟨⟨⟨⟨⟨⟨⟨⟨⟨⟨⟨⟨⟨h1, h2⟩, h3⟩, h4⟩, h5⟩, h6⟩, h7⟩, h8⟩, h9⟩, h10⟩, h11⟩, h12⟩, h13⟩, fun r hr =>
      ⟨⟨⟨(h14 r hr).1, (h14 r hr).2.1⟩, (h14 r hr).2.2.1⟩, (h14 r hr).2.2.2⟩⟩

/-- The validation of the arguments and the mode handler together accept exactly the acceptable terms. -/
theorem terms_iff {w : World} {a : InitializePresaleArgs} {key : Addr} {k : InitKeys} {t : Nat}
    {remaining rest : List Addr} (hL : ∀ acc x, w.fixedArgs acc = some x → 0 < x.qPrice) :
    (a.inRange = true ∧ a.validate t = .ok () ∧
      ∃ p, processCreatePresaleVault w.fixedArgs key k a t remaining = .ok (p, rest)) ↔
    ∃ price, PricedBy w.fixedArgs key a.presaleParams.presaleMode remaining price rest ∧ Terms t price a := by
  have hB := u64Bound_eq
  constructor
  · rintro ⟨hr, hv, p, hc⟩
    have V := validate_ok hv
    obtain ⟨k', hk', hlen, hsup, _⟩ := processCreate_ok hc
    obtain ⟨⟨r1, r2, r3, r4⟩, ⟨r5, r6, r7, r8⟩, ⟨r9, r10, r11, r12⟩, r13, r14⟩ := inRange_iff.1 hr
    obtain ⟨price, hP, T⟩ := (create_iff hL V (by omega) hsup ⟨k', hk'⟩).1 ⟨p, hc⟩
    refine ⟨price, hP, ?_⟩
    have S := V.sale
    have hd := S.duration
    have hah := S.ahead
    have hrel : ReleaseTerms a.lockedVestingParams a.presaleParams.presaleEndTime := by
      refine (lockValidate_iff r4).1 ?_
      intro x hx
      simp only [InitializePresaleArgs.validate, bind_eq_ok] at hv
      obtain ⟨_, _, _, _, h3⟩ := hv
      rw [hx] at h3 hk'
      exact ⟨h3, k', hk'⟩
    exact {
      capsFit := r1, timesFit := ⟨r3, r4⟩, bytesFit := ⟨r5, r6, r7⟩, releaseFit := ⟨r10, r11, r12⟩
      caps := ⟨S.positive, S.order⟩
      ahead := by omega
      duration := by omega
      whitelist := whitelist_some.1 S.whitelist
      mode := mode_some.1 S.mode
      flag := S.early
      count := V.count
      several := V.several
      registries := fun r hr => {
        fits := r14 r hr
        supply := (V.regs r hr).supply, order := (V.regs r hr).order, positive := (V.regs r hr).positive
        within := (V.regs r hr).within, fee := (V.regs r hr).fee
        dynamicWhitelisted := fun h1 h2 => T.dynamicWhitelisted h1 h2 r hr
        fixedWhitelisted := fun q h1 h2 => T.fixedWhitelisted q h1 h2 r hr
        buyable := fun q h1 => T.buyable q h1 r hr }
      supply := by rw [offered_eq]; omega
      release := hrel
      price := T.price }
  · rintro ⟨price, hP, T⟩
    have hd := T.duration
    have hah := T.ahead
    have hc := T.caps
    have hrel := (lockValidate_iff T.timesFit.2).2 T.release
    have hsup : suppliesOf a.presaleRegistries < u64Bound := by
      have := T.supply; rw [offered_eq] at this; omega
    have VP : ValidPresale a.presaleParams t :=
      { order := hc.2, positive := hc.1, duration := by omega, ahead := by omega
        whitelist := whitelist_some.2 T.whitelist, mode := mode_some.2 T.mode, early := T.flag }
    have VR : ∀ r ∈ a.presaleRegistries, ValidRegistry a.presaleParams r := fun r hr =>
      { order := (T.registries r hr).order, positive := (T.registries r hr).positive
        within := (T.registries r hr).within, supply := (T.registries r hr).supply, fee := (T.registries r hr).fee }
    have hrange : a.inRange = true := by
      rw [inRange_iff]
      have h1 := T.capsFit
      have h2 := T.flag
      have hbps : a.lockedVestingParams.immediatelyReleaseBps < 2 ^ 16 := by
        have := T.release
        unfold ReleaseTerms at this
        omega
      exact ⟨⟨h1, by omega, T.timesFit.1, T.timesFit.2⟩, ⟨T.bytesFit.1, T.bytesFit.2.1, T.bytesFit.2.2, by omega⟩,
        ⟨hbps, T.releaseFit.1, T.releaseFit.2.1, T.releaseFit.2.2⟩, by have := T.count; omega,
        fun r hr => (T.registries r hr).fits⟩
    have hv : a.validate t = .ok () := by
      have hpos : 0 < suppliesOf a.presaleRegistries := by
        cases hl : a.presaleRegistries with
        | nil => have := T.count; rw [hl] at this; simp at this
        | cons r rs =>
          have := (VR r (by rw [hl]; simp)).supply
          have e : suppliesOf (r :: rs) = r.presaleSupply + suppliesOf rs := by simp [suppliesOf, lsum_cons]
          omega
      have h128 : u64Bound < u128Bound := by rw [u64Bound_eq, u128Bound_eq]; decide
      have hloop := validateRegistriesLoop_succeeds (acc := 0) VR (by omega)
      rw [Nat.zero_add] at hloop
      have hmulti : checkMultipleRegistries a.presaleRegistries a.presaleParams = .ok () := by
        unfold checkMultipleRegistries
        split
        · next hgt =>
          obtain ⟨⟨wm, hwm⟩, _⟩ := castWhitelist_of_some VP.whitelist
          simp only [hwm, ok_bind]
          exact require_ok ((castWhitelist_permissioned hwm).1.2 (T.several hgt))
        · rfl
      have hregs : validatePresaleRegistries a.presaleRegistries a.presaleParams = .ok () := by
        simp only [validatePresaleRegistries, hloop]
        rw [require_ok (show a.presaleRegistries.length > 0 ∧ a.presaleRegistries.length ≤ MAX_PRESALE_REGISTRY_COUNT
            from T.count), ok_bind, ok_bind, require_ok (by omega), ok_bind, require_ok hpos, ok_bind, hmulti]
      simp only [InitializePresaleArgs.validate, presaleValidate_iff.2 VP, hregs, ok_bind]
      cases ho : a.lockedVestingParams.option with
      | none => rfl
      | some l => exact (hrel l ho).1
    have hlock : ∃ k', lockTermsOf a.presaleParams.presaleEndTime a.lockedVestingParams.option = .ok k' := by
      cases ho : a.lockedVestingParams.option with
      | none => exact ⟨_, rfl⟩
      | some l => exact (hrel l ho).2
    refine ⟨hrange, hv, ?_⟩
    refine (create_iff hL (validate_ok hv) (by have := T.capsFit; omega) hsup hlock).2 ⟨price, hP, ?_⟩
    exact ⟨fun h1 h2 r hr => (T.registries r hr).dynamicWhitelisted h1 h2,
      fun q h1 h2 r hr => (T.registries r hr).fixedWhitelisted q h1 h2,
      fun q h1 r hr => (T.registries r hr).buyable q h1, T.price⟩

/-- **C71.** A presale can be created if and only if its terms are acceptable, its accounts are fresh, its
mints supported, and the payer can be charged an amount of which the whole supply arrives. -/
theorem C71_created_iff {w : World} (R : Reachable w) (tx : Tx) (x : InitPresaleAcc) :
    (∃ w' rc, step w (.ix tx (.initPresale x)) = .ok (w', rc)) ↔
    ∃ price left bm qm src gross, Creatable w tx x price left bm qm src gross := by
  have W := R.winv
  have hB := u64Bound_eq
  have hL : ∀ acc x, w.fixedArgs acc = some x → 0 < x.qPrice := fun acc x h => (W.aux.fixed acc x h).2.1
  constructor
  · rintro ⟨w', rc, hs⟩
    obtain ⟨bm, qm, p, rem, supply, inc, hooks, rest, tk, cpi, F⟩ := handleInitPresale_iff.1 hs
    obtain ⟨price, hP, T⟩ := (terms_iff hL).1 ⟨F.range.1, F.valid, p, F.create⟩
    obtain ⟨hsrc, -, -, -, -, -⟩ := F.vaults W
    have hb' : x.payerPresaleToken ≠ .baseVault x.presaleKey := by intro h; rw [h] at hsrc; cases hsrc
    have hq' : x.payerPresaleToken ≠ .quoteVault x.presaleKey := by intro h; rw [h] at hsrc; cases hsrc
    obtain ⟨s, d, m, g1, g2, g3, g4, g5, g6, g7, g8, g9, g10, g11, g12, g13⟩ := transfer_iff.1 ⟨_, _, F.transfer⟩
    simp only [upd_other _ _ hq', upd_other _ _ hb'] at g1
    have e : m = bm := by have := F.baseMint; rw [g3] at this; cases this; rfl
    subst e
    have hsum : supply = offered x.args := by
      have := sumSupplies_eq F.sumSupply; rw [offered_eq]; omega
    have hT := T.supply
    have hex := (C42_inversion_exact (W.core.feeOk _ _ g3) (show supply < u64Bound by omega) F.gross).1
    exact ⟨price, rem, m, qm, s, inc, {
      signed := F.signed, fresh := F.fresh, clock := F.clock
      baseMint := ⟨g3, F.programs.1, supported_iff.1 F.supportedBase⟩
      quoteMint := ⟨F.quoteMint, F.programs.2, supported_iff.1 F.supportedQuote⟩
      priced := hP, terms := T
      source := ⟨g1, g6, g8⟩
      gross := ⟨by omega, g10, g11⟩
      accepted := g12
      slices := slicesInRange_iff.1 F.range.2
      hooks := hooks_iff.1 ⟨hooks, rest, F.parse, g4⟩ }⟩
  · rintro ⟨price, left, bm, qm, src, gross, C⟩
    obtain ⟨hr, hv, p, hc⟩ := (terms_iff (key := x.presaleKey) (k := x.keys) hL).2 ⟨price, C.priced, C.terms⟩
    obtain ⟨hooks, rest, hp, hck⟩ := hooks_iff.2 C.hooks
    have hT := C.terms.supply
    have hfee := W.core.feeOk _ _ C.baseMint.1
    have hpos : 0 < offered x.args := by
      rw [offered_eq]
      cases hl : x.args.presaleRegistries with
      | nil => have := C.terms.count; rw [hl] at this; simp at this
      | cons r rs =>
        have := (C.terms.registries r (by rw [hl]; simp)).supply
        have e : suppliesOf (r :: rs) = r.presaleSupply + suppliesOf rs := by simp [suppliesOf, lsum_cons]
        omega
    have hsrcLt := W.core.amounts _ _ C.source.1
    obtain ⟨inc, hinc⟩ := (C42_panic_unreachable hfee (show offered x.args < u64Bound by omega)).2.2
      ⟨gross, by have := C.gross.2.1; omega, C.gross.1⟩
    obtain ⟨hex, hle, hlt, hleast⟩ := C42_inversion_exact hfee (show offered x.args < u64Bound by omega) hinc
    have hig := hleast gross C.gross.1
    have hsum : sumSupplies x.args.presaleRegistries 0 = .ok (offered x.args) := by
      have := sumSupplies_succeeds (rs := x.args.presaleRegistries) (acc := 0) (by rw [← offered_eq]; omega)
      rw [this, offered_eq, Nat.zero_add]
    have hb' : x.payerPresaleToken ≠ .baseVault x.presaleKey := by
      intro h; have := C.source.1; rw [h] at this; rw [show w.tk.toks (.baseVault x.presaleKey) = none from C.fresh.2.1] at this; cases this
    have hq' : x.payerPresaleToken ≠ .quoteVault x.presaleKey := by
      intro h; have := C.source.1; rw [h] at this; rw [show w.tk.toks (.quoteVault x.presaleKey) = none from C.fresh.2.2] at this; cases this
    have htr : ∃ tk cpi, transferTokens
        { w.tk with toks := upd (upd w.tk.toks (.baseVault x.presaleKey) (some (freshVault x.presaleMint)))
                              (.quoteVault x.presaleKey) (some (freshVault x.quoteTokenMint)) }
        x.payer x.presaleMint x.payerPresaleToken (.baseVault x.presaleKey) x.baseTokenProgram inc
        hooks.base tx.accept = .ok (tk, cpi) := by
      rw [transfer_iff]
      refine ⟨src, freshVault x.presaleMint, bm, ?_, ?_, C.baseMint.1, hck, C.baseMint.2.1, C.source.2.1, rfl,
        C.source.2.2, rfl, by have := C.gross.2.1; omega, CanSpend.mono C.gross.2.2 hig, C.accepted, ?_⟩
      · simp only [upd_other _ _ hq', upd_other _ _ hb']; exact C.source.1
      · have : (Addr.baseVault x.presaleKey) ≠ .quoteVault x.presaleKey := by intro h; cases h
        simp only [upd_other _ _ this]; exact upd_self _ _ _
      · intro _
        show 0 + (inc - bm.transferFee inc) < 2 ^ 64
        omega
    obtain ⟨tk, cpi, htr⟩ := htr
    exact ⟨_, _, handleInitPresale_iff.2 ⟨bm, qm, p, left, offered x.args, inc, hooks, rest, tk, cpi, {
      range := ⟨hr, slicesInRange_iff.2 C.slices⟩
      baseMint := C.baseMint.1, quoteMint := C.quoteMint.1, signed := C.signed, fresh := C.fresh
      programs := ⟨C.baseMint.2.1, C.quoteMint.2.1⟩, clock := C.clock, valid := hv
      supportedQuote := supported_iff.2 C.quoteMint.2.2, supportedBase := supported_iff.2 C.baseMint.2.2
      create := hc, sumSupply := hsum, gross := hinc, parse := hp, transfer := htr, post := rfl, receipt := rfl }⟩⟩

namespace Ex

/-- Arguments of `feeInit`. -/
def feeArgs : InitPresaleAcc :=
  { initArgs 1 0 0 reg1 with presaleMint := qm, quoteTokenMint := bm, payer := alice,
                             payerPresaleToken := aliceQuote, baseTokenProgram := .splToken2022,
                             quoteTokenProgram := .splToken }

def feeMint : MintInfo :=
  { program := .splToken2022, isNative := false, exts := [.transferFeeConfig],
    fee := some { basisPoints := 100, maximumFee := 50 }, hook := none, supply := 200000 }

def plainMint : MintInfo :=
  { program := .splToken, isNative := false, exts := [], fee := none, hook := none, supply := 1000000 }

/-- The conditions of C71, checked one by one for a pro-rata sale of a mint with a transfer fee: 10050 are
charged for a supply of 10000. -/
example : Creatable genesis (tx [alice, baseKey]) feeArgs none [] feeMint plainMint (acct qm alice 100000) 10050 where
  signed := by decide +kernel
  fresh := by decide +kernel
  clock := by decide
  baseMint := ⟨by decide +kernel, rfl, Or.inr ⟨rfl, by intro e he; simp [feeMint] at he; exact Or.inl he⟩⟩
  quoteMint := ⟨by decide +kernel, rfl, Or.inl rfl⟩
  priced := Or.inl ⟨Or.inl rfl, rfl, rfl⟩
  terms :=
    { capsFit := by decide, timesFit := by decide, bytesFit := by decide, releaseFit := by decide
      caps := by decide, ahead := by decide, duration := by decide
      whitelist := Or.inl (by decide), mode := Or.inl (by decide), flag := by decide, count := by decide
      several := by intro h; exact absurd h (by decide)
      registries := by
        intro r hr
        rw [List.mem_singleton.1 (show r ∈ reg1 from hr)]
        exact {
          fits := by decide, supply := by decide, order := by decide, positive := by decide, within := by decide
          fee := by decide
          dynamicWhitelisted := by rintro _ (h | h) <;> cases h
          fixedWhitelisted := by intro q hq; cases hq
          buyable := by intro q hq; cases hq }
      supply := by decide
      release := Or.inr ⟨by decide, by decide, Or.inr ⟨by decide, by decide, Or.inr (Or.inr (by decide))⟩⟩
      price := by intro q hq; cases hq }
  source := ⟨by decide +kernel, rfl, rfl⟩
  gross := ⟨by decide, by decide, Or.inr ⟨rfl, by intro n h; cases h⟩⟩
  accepted := rfl
  slices := ⟨by decide, by intro s hs; cases hs⟩
  hooks := ⟨(by intro s hs; cases hs), by decide, rfl⟩

/-- A fixed-price sale: the price account is needed. -/
example : (∃ price left bm qm src gross, Creatable genesis (tx [creator, baseKey]) (initArgs 1 0 0 reg1) price left bm qm src gross) ∧
    ¬ (∃ price left bm qm src gross, Creatable genesis (tx [creator, baseKey]) (initArgs 0 0 0 reg1) price left bm qm src gross) := by
  constructor
  · refine (C71_created_iff (reachable []) _ _).1 ?_
    cases h : step genesis (.ix (tx [creator, baseKey]) (.initPresale (initArgs 1 0 0 reg1))) with
    | ok r => exact ⟨r.1, r.2, h⟩
    | error e =>
      have : works genesis (.ix (tx [creator, baseKey]) (.initPresale (initArgs 1 0 0 reg1))) = true := by decide +kernel
      rw [works, h] at this; cases this
  · rintro ⟨price, left, b, q, src, gross, C⟩
    rcases C.priced with ⟨h | h, _⟩ | ⟨_, _, acc, x, h1, h2, _⟩
    · cases h
    · cases h
    · cases h2

end Ex

end Verif
