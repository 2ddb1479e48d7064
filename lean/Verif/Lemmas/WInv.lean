import Verif.Lemmas.Loops
import Verif.Props.TransferFee
/-!
# The invariant of the whole ledger
-/

namespace Verif
open Spec

/-! ## Early finish -/

theorem Spec.Shifted.same {p p' : Presale} (h1 : p'.presaleEndTime = p.presaleEndTime)
    (h2 : p'.vestingStartTime = p.vestingStartTime) (h3 : p'.vestingEndTime = p.vestingEndTime)
    (h4 : p'.immediateReleaseTimestamp = p.immediateReleaseTimestamp) : Shifted p p' :=
  ⟨by omega, Or.inl ⟨h1, h2, h3, h4⟩⟩

theorem Spec.Shifted.refl (p : Presale) : Shifted p p := Shifted.same rfl rfl rfl rfl

theorem Spec.Shifted.of_books {p p' : Presale} (h : books p' = books p) : Shifted p p' :=
  Shifted.same (congrArg Presale.presaleEndTime h :) (congrArg Presale.vestingStartTime h :)
    (congrArg Presale.vestingEndTime h :) (congrArg Presale.immediateReleaseTimestamp h :)

theorem Spec.Shifted.ended (p : Presale) {t : Nat} (h : t ≤ p.presaleEndTime) : Shifted p (p.endedAt t) :=
  ⟨h, Or.inr ⟨rfl, rfl, rfl⟩⟩

theorem Spec.Shifted.trans {p p' p'' : Presale} (h1 : Shifted p p') (h2 : Shifted p' p'')
    (e1 : p''.lockDuration = p'.lockDuration) (e2 : p''.vestDuration = p'.vestDuration) : Shifted p p'' := by
  refine ⟨Nat.le_trans h2.earlier h1.earlier, ?_⟩
  rcases h2.dates with ⟨a1, a2, a3, a4⟩ | ⟨a1, a2, a3⟩
  · rcases h1.dates with ⟨b1, b2, b3, b4⟩ | ⟨b1, b2, b3⟩
    · exact Or.inl ⟨by omega, by omega, by omega, by omega⟩
    · exact Or.inr ⟨by omega, by omega, by omega⟩
  · rcases h1.dates with ⟨b1, b2, b3, b4⟩ | ⟨b1, b2, b3⟩
    · exact Or.inr ⟨by omega, by omega, by rw [a3, b1, b4]⟩
    · exact Or.inr ⟨by omega, by omega, by omega⟩

/-! ## Vault balances -/

theorem Money.pay {p p' : Presale} {bb qb bb' qb' x y : Nat} (M : Money p bb qb) (h : books p' = books p)
    (h1 : p'.hasCreatorWithdrawn = p.hasCreatorWithdrawn) (h2 : p'.depositFeeCollected = p.depositFeeCollected)
    (h3 : p'.isUnsoldTokenActionPerformed = p.isUnsoldTokenActionPerformed)
    (hr : p'.totalRefundedQuoteToken = p.totalRefundedQuoteToken + x)
    (hc : p'.totalClaimedToken = p.totalClaimedToken + y) (hq : qb ≤ qb' + x) (hb : bb ≤ bb' + y) :
    Money p' bb' qb' := by
  have e1 : p'.totalDeposit = p.totalDeposit := (congrArg Presale.totalDeposit h :)
  have e2 : p'.totalDepositFee = p.totalDepositFee := (congrArg Presale.totalDepositFee h :)
  have e3 : p'.presaleMinimumCap = p.presaleMinimumCap := (congrArg Presale.presaleMinimumCap h :)
  have e4 : p'.presaleSupply = p.presaleSupply := (congrArg Presale.presaleSupply h :)
  constructor
  · rw [e1, e2, e3, h1, h2, hr, raise_congr h, collectableFee_congr h]
    have := M.quote
    omega
  · rw [e1, e3, e4, h1, h3, hc, totalSold_congr h]
    have := M.base
    omega

theorem Money.open_iff {p : Presale} {bb qb : Nat} (h1 : p.hasCreatorWithdrawn = 0)
    (h2 : p.depositFeeCollected = 0) (h3 : p.isUnsoldTokenActionPerformed = 0) :
    Money p bb qb ↔ p.totalDeposit + p.totalDepositFee ≤ qb + p.totalRefundedQuoteToken ∧
      p.presaleSupply ≤ bb + p.totalClaimedToken := by
  constructor
  · intro M
    have := M.quote
    have := M.base
    simp only [h1, h2, h3] at *
    simp at *
    omega
  · intro h
    constructor
    · simp only [h1, h2]; simp; omega
    · simp only [h1, h3]; simp; omega

theorem Money.mono {p : Presale} {bb qb bb' qb' : Nat} (M : Money p bb qb) (h1 : bb ≤ bb') (h2 : qb ≤ qb') :
    Money p bb' qb' := by
  have := M.quote
  have := M.base
  exact ⟨by omega, by omega⟩

/-! ## The invariant -/

/-- Everything that holds of one presale at any time. -/
structure Sale (now : Int) (es : AMap Addr Escrow) (tk : Tokens) (a : Addr) (p : Presale) : Prop where
  clock : 0 ≤ now
  pinv : PInv now.toNat a p es
  vaults : ∃ b q, tk.toks (.baseVault a) = some b ∧ b.mint = p.baseMint ∧
    tk.toks (.quoteVault a) = some q ∧ q.mint = p.quoteMint ∧ Money p b.amount q.amount
  baseMint : ∃ m, tk.mints p.baseMint = some m ∧ isSupportedMint m = true ∧
    m.program.flag = p.baseTokenProgramFlag
  quoteMint : ∃ m, tk.mints p.quoteMint = some m ∧ isSupportedMint m = true ∧
    m.program.flag = p.quoteTokenProgramFlag
  origin : ∃ p0, Documented p.createdAt p0 ∧ terms p = terms p0 ∧ Shifted p0 p

/-- Ledger invariant: presales, escrows and token accounts. -/
structure Core (w : World) : Prop where
  nodup : (AMap.keys w.escrows).Nodup
  esc : ∀ x ∈ w.escrows, x.1 = .escrow x.2.presale x.2.owner x.2.registryIndex ∧
    ∃ p, w.presales x.2.presale = some p
  amounts : ∀ a t, w.tk.toks a = some t → t.amount < u64Bound
  mints : ∀ a m, w.tk.mints a = some m → m.wellFormed = true
  vaults : ∀ a t, a.isVault = true → w.tk.toks a = some t → t.owner = .presaleAuthority ∧ t.delegate = none
  sale : ∀ a p, w.presales a = some p → Sale w.clock w.escrows w.tk a p

/-- Ledger invariant: the small accounts. -/
structure Aux (w : World) : Prop where
  fixed : ∀ a x, w.fixedArgs a = some x →
    a = .fixedPriceArgs x.presale ∧ 0 < x.qPrice ∧ x.qPrice < u128Bound ∧ x.disableWithdraw ≤ 1
  merkle : ∀ a c, w.merkleRoots a = some c →
    a = .merkleRoot c.presale c.version ∧ ∃ p, w.presales c.presale = some p
  ops : ∀ a o, w.operators a = some o → a = .operator o.creator o.owner
  metas : ∀ a m, w.metadata a = some m →
    a = .serverMetadata m.presale ∧ ∃ p, w.presales m.presale = some p

/-- The ledger invariant. -/
structure WInv (w : World) : Prop where
  core : Core w
  aux : Aux w

theorem Ext.grown_refl (l : List Ext) : Ext.grown l l := ⟨fun _ h => h, fun _ h => .inl h⟩

theorem Ext.grown_of_eq {l l' : List Ext} (h : l' = l) : Ext.grown l' l := h ▸ Ext.grown_refl l'

theorem Ext.grown.trans {a b c : List Ext} (h1 : Ext.grown b a) (h2 : Ext.grown c b) : Ext.grown c a :=
  ⟨fun e h => h2.1 e (h1.1 e h), fun e h => (h2.2 e h).elim (h1.2 e) .inr⟩

theorem supported_congr {m m' : MintInfo} (h1 : m'.program = m.program) (h2 : m'.isNative = m.isNative)
    (h3 : Ext.grown m'.exts m.exts) : isSupportedMint m' = isSupportedMint m := by
  have h4 : m'.exts.all extSupported = m.exts.all extSupported := by
    rw [Bool.eq_iff_iff, List.all_eq_true, List.all_eq_true]
    constructor
    · intro h e he
      exact h e (h3.1 e he)
    · intro h e he
      rcases h3.2 e he with g | rfl
      · exact h e g
      · rfl
  unfold isSupportedMint; rw [h1, h2, h4]

theorem wellFormed_congr {m m' : MintInfo} (h1 : m'.fee = m.fee) (h2 : m'.supply ≤ m.supply)
    (h : m.wellFormed = true) : m'.wellFormed = true := by
  unfold MintInfo.wellFormed at *
  rw [h1]
  simp only [Bool.and_eq_true, decide_eq_true_eq] at *
  exact ⟨by omega, h.2⟩

/-- A sale not touched by an instruction keeps its invariant. -/
theorem Sale.frame {c : Int} {es es' : AMap Addr Escrow} {k k' : Tokens} {a src : Addr} {amount : Nat}
    {p : Presale} (S : Sale c es k a p) (hM : Moved k k' src amount) (h : SameFor a es es')
    (h1 : src ≠ .baseVault a) (h2 : src ≠ .quoteVault a) : Sale c es' k' a p := by
  obtain ⟨b, q, hb, hbm, hq, hqm, M⟩ := S.vaults
  obtain ⟨b', b1, b2, _, _, _, b3⟩ := hM.keep _ _ hb
  obtain ⟨q', q1, q2, _, _, _, q3⟩ := hM.keep _ _ hq
  rw [if_neg h1.symm] at b3
  rw [if_neg h2.symm] at q3
  refine ⟨S.clock, S.pinv.frame h, ⟨b', q', b1, b2.trans hbm, q1, q2.trans hqm, M.mono b3 q3⟩, ?_, ?_, S.origin⟩
  · obtain ⟨m, m1, m2, m3⟩ := S.baseMint
    obtain ⟨m', n1, n2, n3, n4, _⟩ := hM.mints _ _ m1
    exact ⟨m', n1, by rw [supported_congr n2 n3 (Ext.grown_of_eq n4)]; exact m2, by rw [n2]; exact m3⟩
  · obtain ⟨m, m1, m2, m3⟩ := S.quoteMint
    obtain ⟨m', n1, n2, n3, n4, _⟩ := hM.mints _ _ m1
    exact ⟨m', n1, by rw [supported_congr n2 n3 (Ext.grown_of_eq n4)]; exact m2, by rw [n2]; exact m3⟩

/-- The updated presale, its escrows and a token movement keep the invariant of the sale. -/
theorem Sale.update {c : Int} {es es' : AMap Addr Escrow} {k k' : Tokens} {a src : Addr} {amount : Nat}
    {p p' : Presale} (S : Sale c es k a p) (hM : Moved k k' src amount)
    (hP : PInv c.toNat a p' es') (ht : terms p' = terms p) (hs : Shifted p p')
    (hmoney : ∀ b q b' q', k.toks (.baseVault a) = some b → k.toks (.quoteVault a) = some q →
      k'.toks (.baseVault a) = some b' → k'.toks (.quoteVault a) = some q' →
      b.amount ≤ b'.amount + (if .baseVault a = src then amount else 0) →
      q.amount ≤ q'.amount + (if .quoteVault a = src then amount else 0) →
      Money p b.amount q.amount → Money p' b'.amount q'.amount) : Sale c es' k' a p' := by
  obtain ⟨b, q, hb, hbm, hq, hqm, M⟩ := S.vaults
  obtain ⟨b', b1, b2, _, _, _, b3⟩ := hM.keep _ _ hb
  obtain ⟨q', q1, q2, _, _, _, q3⟩ := hM.keep _ _ hq
  have e1 : p'.baseMint = p.baseMint := (congrArg Presale.baseMint ht :)
  have e2 : p'.quoteMint = p.quoteMint := (congrArg Presale.quoteMint ht :)
  have e3 : p'.baseTokenProgramFlag = p.baseTokenProgramFlag := (congrArg Presale.baseTokenProgramFlag ht :)
  have e4 : p'.quoteTokenProgramFlag = p.quoteTokenProgramFlag := (congrArg Presale.quoteTokenProgramFlag ht :)
  have e5 : p'.createdAt = p.createdAt := (congrArg Presale.createdAt ht :)
  have e6 : p'.lockDuration = p.lockDuration := (congrArg Presale.lockDuration ht :)
  have e7 : p'.vestDuration = p.vestDuration := (congrArg Presale.vestDuration ht :)
  refine ⟨S.clock, hP, ⟨b', q', b1, by rw [e1]; exact b2.trans hbm, q1, by rw [e2]; exact q2.trans hqm,
    hmoney b q b' q' hb hq b1 q1 b3 q3 M⟩, ?_, ?_, ?_⟩
  · obtain ⟨m, m1, m2, m3⟩ := S.baseMint
    obtain ⟨m', n1, n2, n3, n4, _⟩ := hM.mints _ _ m1
    rw [e1, e3]
    exact ⟨m', n1, by rw [supported_congr n2 n3 (Ext.grown_of_eq n4)]; exact m2, by rw [n2]; exact m3⟩
  · obtain ⟨m, m1, m2, m3⟩ := S.quoteMint
    obtain ⟨m', n1, n2, n3, n4, _⟩ := hM.mints _ _ m1
    rw [e2, e4]
    exact ⟨m', n1, by rw [supported_congr n2 n3 (Ext.grown_of_eq n4)]; exact m2, by rw [n2]; exact m3⟩
  · obtain ⟨p0, d1, d2, d3⟩ := S.origin
    exact ⟨p0, by rw [e5]; exact d1, ht.trans d2, d3.trans hs e6 e7⟩

/-- Instructions that touch one presale, its escrows and move tokens once. -/
theorem Core.update {w : World} {es' : AMap Addr Escrow} {k' : Tokens} {a src : Addr} {amount : Nat}
    {p' : Presale} (C : Core w) (hM : Moved w.tk k' src amount)
    (hsrc : src.isVault = false ∨ src = .baseVault a ∨ src = .quoteVault a)
    (hn : (AMap.keys es').Nodup)
    (hesc : ∀ x ∈ es', (x ∈ w.escrows) ∨
      (x.2.presale = a ∧ x.1 = .escrow x.2.presale x.2.owner x.2.registryIndex))
    (hsame : ∀ b, b ≠ a → SameFor b w.escrows es')
    (hS : Sale w.clock es' k' a p') :
    Core { w with presales := upd w.presales a (some p'), escrows := es', tk := k' } := by
  constructor
  · exact hn
  · intro x hx
    rcases hesc x hx with h | ⟨h1, h2⟩
    · obtain ⟨h1, p, h2⟩ := C.esc x h
      refine ⟨h1, ?_⟩
      by_cases he : x.2.presale = a
      · exact ⟨p', by simp only [he, upd_self]⟩
      · exact ⟨p, by simp only [upd_other _ _ he]; exact h2⟩
    · exact ⟨h2, p', by simp only [h1, upd_self]⟩
  · exact hM.range C.amounts
  · intro x m hm
    cases h0 : w.tk.mints x with
    | none => rw [hM.mintsNone x h0] at hm; cases hm
    | some m0 =>
      obtain ⟨m', n1, n2, n3, n4, n5, n6, n7⟩ := hM.mints _ _ h0
      rw [n1] at hm; cases hm
      exact wellFormed_congr n5 n7 (C.mints x m0 h0)
  · intro x t hv hx
    cases h0 : w.tk.toks x with
    | none => rw [hM.none x h0] at hx; cases hx
    | some t0 =>
      obtain ⟨t', n1, n2, n3, n4, n5, n6⟩ := hM.keep _ _ h0
      rw [n1] at hx; cases hx
      obtain ⟨v1, v2⟩ := C.vaults x t0 hv h0
      exact ⟨n3.trans v1, n4 v2⟩
  · intro b p hp
    by_cases hb : b = a
    · subst hb
      simp only [upd_self] at hp
      cases hp
      exact hS
    · simp only [upd_other _ _ hb] at hp
      refine (C.sale b p hp).frame hM (hsame b hb) ?_ ?_
      · rintro rfl
        rcases hsrc with h | h | h
        · cases h
        · injection h with h; exact hb h
        · cases h
      · rintro rfl
        rcases hsrc with h | h | h
        · cases h
        · cases h
        · injection h with h; exact hb h

theorem upd_eq_self {K V : Type} [DecidableEq K] {f : K → Option V} {k : K} {v : V} (h : f k = some v) :
    upd f k (some v) = f := by
  funext x
  by_cases hx : x = k
  · rw [hx, upd_self, h]
  · rw [upd_other _ _ hx]

theorem Aux.update {w : World} {es' : AMap Addr Escrow} {k' : Tokens} {a : Addr} {p' : Presale} (A : Aux w) :
    Aux { w with presales := upd w.presales a (some p'), escrows := es', tk := k' } := by
  have key : ∀ b, (∃ p, w.presales b = some p) → ∃ p, upd w.presales a (some p') b = some p := by
    rintro b ⟨p, h⟩
    by_cases hb : b = a
    · exact ⟨p', by rw [hb, upd_self]⟩
    · exact ⟨p, by rw [upd_other _ _ hb]; exact h⟩
  exact ⟨A.fixed, fun x c h => ⟨(A.merkle x c h).1, key _ (A.merkle x c h).2⟩, A.ops,
    fun x c h => ⟨(A.metas x c h).1, key _ (A.metas x c h).2⟩⟩

/-! ## Token movements -/

/-- A key can never spend from a vault. -/
theorem user_src {k : Tokens} {authority mint src dst : Addr} {prog : TokenProgram} {amount : Nat}
    {hooks : Option (List Addr)} {accept : Bool} {k' : Tokens} {cpi : Cpi} {s d : TokAcct} {m : MintInfo}
    {dlg : Option (Addr × Nat)}
    (F : TransferFacts k authority mint src dst prog amount hooks accept k' cpi s d m dlg)
    (hv : ∀ a t, a.isVault = true → k.toks a = some t → t.owner = .presaleAuthority ∧ t.delegate = none)
    (hk : ∃ n, authority = .key n) : src.isVault = false := by
  cases h : src.isVault with
  | false => rfl
  | true =>
    obtain ⟨h1, h2⟩ := hv src s h F.hs
    obtain ⟨n, rfl⟩ := hk
    rcases (authorizeSpend_ok F.auth).1 with h3 | ⟨_, h3, _⟩
    · rw [h1] at h3; cases h3
    · rw [h2] at h3; cases h3

theorem isVault_base (a : Addr) : (Addr.baseVault a).isVault = true := rfl
theorem isVault_quote (a : Addr) : (Addr.quoteVault a).isVault = true := rfl

end Verif
