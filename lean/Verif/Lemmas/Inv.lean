import Verif.Lemmas.Core
/-!
# The invariant of a single presale, and how its parts are preserved
-/

namespace Verif
open Spec

/-! ## Terms -/

/-- Facts about the terms of a sale that hold from creation on. -/
structure Static (a : Addr) (p : Presale) : Prop where
  key : a = .presale p.base p.baseMint p.quoteMint
  baseVault : p.baseTokenVault = .baseVault a
  quoteVault : p.quoteTokenVault = .quoteVault a
  len : p.registries.length = 5
  countPos : 1 ≤ p.totalPresaleRegistryCount
  countLe : p.totalPresaleRegistryCount ≤ 5
  reg : ∀ (i : Nat) r, p.registries[i]? = some r → i < p.totalPresaleRegistryCount →
    0 < r.presaleSupply ∧ r.buyerMinimumDepositCap ≤ r.buyerMaximumDepositCap ∧
    0 < r.buyerMaximumDepositCap ∧ r.buyerMaximumDepositCap ≤ p.presaleMaximumCap ∧
    r.depositFeeBps ≤ 5000
  unused : ∀ (i : Nat) r, p.registries[i]? = some r → p.totalPresaleRegistryCount ≤ i →
    registryTerms r = Registry.fresh
  supply : p.presaleSupply = lsum Registry.presaleSupply p.registries
  supplyLt : p.presaleSupply < u64Bound
  minPos : 0 < p.presaleMinimumCap
  minLe : p.presaleMinimumCap ≤ p.presaleMaximumCap
  maxLt : p.presaleMaximumCap < u64Bound
  mode : ∃ m, castPresaleMode p.presaleMode = .ok m
  whitelist : ∃ m, castWhitelistMode p.whitelistMode = .ok m
  price : p.presaleMode ≠ 1 → p.presaleMode ≠ 2 → 0 < p.raw0 ∧ p.raw0 < u128Bound ∧
    tokensAtPrice p.raw0 p.presaleMaximumCap ≤ p.presaleSupply
  bps : p.immediateReleaseBps ≤ 10000
  startBefore : p.createdAt ≤ p.presaleStartTime

theorem terms_reg {p p' : Presale} (h : terms p' = terms p) {i : Nat} {r' : Registry}
    (hr : p'.registries[i]? = some r') :
    ∃ r, p.registries[i]? = some r ∧ registryTerms r' = registryTerms r := by
  have h1 : p'.registries.map registryTerms = p.registries.map registryTerms :=
    (congrArg Presale.registries h :)
  have h2 : (p'.registries.map registryTerms)[i]? = some (registryTerms r') := by
    rw [List.getElem?_map, hr]; rfl
  rw [h1, List.getElem?_map] at h2
  cases h3 : p.registries[i]? with
  | none => rw [h3] at h2; cases h2
  | some r => rw [h3] at h2; simp at h2; exact ⟨r, rfl, h2.symm⟩

theorem terms_lsum {p p' : Presale} (h : terms p' = terms p) :
    lsum Registry.presaleSupply p'.registries = lsum Registry.presaleSupply p.registries := by
  have h1 : p'.registries.map registryTerms = p.registries.map registryTerms :=
    (congrArg Presale.registries h :)
  have h2 : ∀ l : List Registry, lsum Registry.presaleSupply l =
      lsum Registry.presaleSupply (l.map registryTerms) := by
    intro l
    unfold lsum
    rw [List.map_map]; rfl
  rw [h2 p'.registries, h2 p.registries, h1]

theorem Static.congr {a : Addr} {p p' : Presale} (h : terms p' = terms p) (hs : Static a p) : Static a p' := by
  have e1 : p'.base = p.base := (congrArg Presale.base h :)
  have e2 : p'.baseMint = p.baseMint := (congrArg Presale.baseMint h :)
  have e3 : p'.quoteMint = p.quoteMint := (congrArg Presale.quoteMint h :)
  have e4 : p'.baseTokenVault = p.baseTokenVault := (congrArg Presale.baseTokenVault h :)
  have e5 : p'.quoteTokenVault = p.quoteTokenVault := (congrArg Presale.quoteTokenVault h :)
  have e6 : p'.totalPresaleRegistryCount = p.totalPresaleRegistryCount :=
    (congrArg Presale.totalPresaleRegistryCount h :)
  have e7 : p'.presaleMaximumCap = p.presaleMaximumCap := (congrArg Presale.presaleMaximumCap h :)
  have e8 : p'.presaleMinimumCap = p.presaleMinimumCap := (congrArg Presale.presaleMinimumCap h :)
  have e9 : p'.presaleSupply = p.presaleSupply := (congrArg Presale.presaleSupply h :)
  have e10 : p'.presaleMode = p.presaleMode := (congrArg Presale.presaleMode h :)
  have e11 : p'.whitelistMode = p.whitelistMode := (congrArg Presale.whitelistMode h :)
  have e12 : p'.raw0 = p.raw0 := (congrArg Presale.raw0 h :)
  have e13 : p'.immediateReleaseBps = p.immediateReleaseBps := (congrArg Presale.immediateReleaseBps h :)
  have e14 : p'.createdAt = p.createdAt := (congrArg Presale.createdAt h :)
  have e15 : p'.presaleStartTime = p.presaleStartTime := (congrArg Presale.presaleStartTime h :)
  have hl : p'.registries.length = p.registries.length := by
    have := congrArg List.length (congrArg Presale.registries h)
    simpa [terms] using this
  constructor
  · rw [e1, e2, e3]; exact hs.key
  · rw [e4]; exact hs.baseVault
  · rw [e5]; exact hs.quoteVault
  · rw [hl]; exact hs.len
  · rw [e6]; exact hs.countPos
  · rw [e6]; exact hs.countLe
  · intro i r' hr hi
    obtain ⟨r, hr0, ht⟩ := terms_reg h hr
    rw [e6] at hi
    have := hs.reg i r hr0 hi
    have f1 : r'.presaleSupply = r.presaleSupply := (congrArg Registry.presaleSupply ht :)
    have f2 : r'.buyerMinimumDepositCap = r.buyerMinimumDepositCap :=
      (congrArg Registry.buyerMinimumDepositCap ht :)
    have f3 : r'.buyerMaximumDepositCap = r.buyerMaximumDepositCap :=
      (congrArg Registry.buyerMaximumDepositCap ht :)
    have f4 : r'.depositFeeBps = r.depositFeeBps := (congrArg Registry.depositFeeBps ht :)
    rw [f1, f2, f3, f4, e7]; exact this
  · intro i r' hr hi
    obtain ⟨r, hr0, ht⟩ := terms_reg h hr
    rw [e6] at hi
    rw [ht]; exact hs.unused i r hr0 hi
  · rw [e9, terms_lsum h]; exact hs.supply
  · rw [e9]; exact hs.supplyLt
  · rw [e8]; exact hs.minPos
  · rw [e7, e8]; exact hs.minLe
  · rw [e7]; exact hs.maxLt
  · rw [e10]; exact hs.mode
  · rw [e11]; exact hs.whitelist
  · rw [e7, e9, e10, e12]; exact hs.price
  · rw [e13]; exact hs.bps
  · rw [e14, e15]; exact hs.startBefore

theorem map_set_same {α β : Type} (g : α → β) {l : List α} {i : Nat} {x x' : α} (h : l[i]? = some x)
    (hg : g x' = g x) : (l.set i x').map g = l.map g := by
  induction l generalizing i with
  | nil => simp at h
  | cons y l ih =>
    cases i with
    | zero => simp at h; subst h; simp [hg]
    | succ i =>
      simp only [List.getElem?_cons_succ] at h
      simp [ih h]

theorem Static.handler {a : Addr} {p : Presale} (hs : Static a p) :
    ∃ h, getPresaleModeHandler p = .ok h := by
  obtain ⟨m, hm⟩ := hs.mode
  unfold getPresaleModeHandler
  rw [hm, ok_bind]
  cases m <;> exact ⟨_, rfl⟩

/-! ## Books -/

/-- A registry with the counters that do not enter any entitlement blanked out. -/
def registryBooks (r : Registry) : Registry :=
  { r with totalEscrow := 0, totalClaimedToken := 0, totalRefundedQuoteToken := 0 }

/-- A presale with the counters and flags that do not enter any entitlement blanked out. -/
def books (p : Presale) : Presale :=
  { p with totalEscrow := 0, totalClaimedToken := 0, totalRefundedQuoteToken := 0, depositFeeCollected := 0,
           hasCreatorWithdrawn := 0, isUnsoldTokenActionPerformed := 0,
           registries := p.registries.map registryBooks }

theorem terms_of_books {p p' : Presale} (h : books p' = books p) : terms p' = terms p := by
  have key : ∀ p : Presale, terms p = terms (books p) := by
    intro p
    simp [terms, books, registryTerms, registryBooks]
  rw [key p', key p, h]

section congr
variable {p p' : Presale} {r r' : Registry} {e e' : Escrow}

theorem sold_congr (h : books p' = books p) (hr : registryBooks r' = registryBooks r) :
    sold p' r' = sold p r := by
  show sold (books p') (registryBooks r') = sold (books p) (registryBooks r)
  rw [h, hr]

theorem claimableAt_congr (h : books p' = books p) (hr : registryBooks r' = registryBooks r)
    (he : e'.totalDeposit = e.totalDeposit) (t : Nat) : claimableAt p' r' e' t = claimableAt p r e t := by
  show claimable (books p').immediateReleaseBps (books p').immediateReleaseTimestamp
    (sold (books p') (registryBooks r')) (books p').vestingStartTime (books p').vestDuration t
    e'.totalDeposit (registryBooks r').totalDeposit = claimable (books p).immediateReleaseBps (books p).immediateReleaseTimestamp
    (sold (books p) (registryBooks r)) (books p).vestingStartTime (books p).vestDuration t
    e.totalDeposit (registryBooks r).totalDeposit
  rw [h, hr, he]

theorem entitlement_congr (h : books p' = books p) (hr : registryBooks r' = registryBooks r)
    (he : e'.totalDeposit = e.totalDeposit) : entitlement p' r' e' = entitlement p r e := by
  have key : ∀ p r e, entitlement p r e = entitlement (books p) (registryBooks r) e := fun _ _ _ => rfl
  rw [key p', key p, h, hr]
  simp only [entitlement, he]

theorem owedRefund_congr (h : books p' = books p) (hr : registryBooks r' = registryBooks r)
    (he : e'.totalDeposit = e.totalDeposit) (hf : e'.totalDepositFee = e.totalDepositFee) :
    owedRefund p' r' e' = owedRefund p r e := by
  have key : ∀ p r e, owedRefund p r e = owedRefund (books p) (registryBooks r) e := fun _ _ _ => rfl
  rw [key p', key p, h, hr]
  simp only [owedRefund, refundDeposit, refundFee, he, hf]

/-- Quote tokens a registry may give back after the sale. -/
def refundPool (p : Presale) (r : Registry) : Nat :=
  if p.totalDeposit < p.presaleMinimumCap then r.totalDeposit + r.totalDepositFee
  else if p.presaleMode = 1 then registrySurplus p r + registryFeeRefund p r else 0

theorem refundPool_congr (h : books p' = books p) (hr : registryBooks r' = registryBooks r) :
    refundPool p' r' = refundPool p r := by
  show refundPool (books p') (registryBooks r') = refundPool (books p) (registryBooks r)
  rw [h, hr]

theorem collectableFee_congr (h : books p' = books p) : collectableFee p' = collectableFee p := by
  have key : ∀ p, collectableFee p = collectableFee (books p) := by
    intro p
    unfold collectableFee
    have : (books p).registries.map (fun r => r.totalDepositFee - registryFeeRefund (books p) r) =
        p.registries.map (fun r => r.totalDepositFee - registryFeeRefund p r) := by
      simp only [books, List.map_map]
      rfl
    rw [this]; rfl
  rw [key p', key p, h]

theorem raise_congr (h : books p' = books p) : raise p' = raise p := by
  show raise (books p') = raise (books p)
  rw [h]

theorem totalSold_congr (h : books p' = books p) : totalSold p' = totalSold p := by
  have key : ∀ p, totalSold p = totalSold (books p) := by
    intro p
    unfold totalSold
    have : (books p).registries.map (sold (books p)) = p.registries.map (sold p) := by
      simp only [books, List.map_map]
      rfl
    rw [this]
  rw [key p', key p, h]

end congr

/-- What an escrow still gets back in quote tokens. -/
def outstanding (p : Presale) (r : Registry) (e : Escrow) : Nat :=
  if e.isRemainingQuoteWithdrawn = 1 then 0 else owedRefund p r e

/-- Invariant of registry `i` at time `t`. -/
structure RegBook (t : Nat) (a : Addr) (p : Presale) (es : AMap Addr Escrow) (i : Nat) (r : Registry) :
    Prop where
  count : r.totalEscrow = esum es a i (fun _ => 1)
  dep : esum es a i Escrow.totalDeposit ≤ r.totalDeposit
  fee : esum es a i Escrow.totalDepositFee ≤ r.totalDepositFee
  depEq : t < p.presaleEndTime → esum es a i Escrow.totalDeposit = r.totalDeposit
  feeEq : t < p.presaleEndTime → esum es a i Escrow.totalDepositFee = r.totalDepositFee
  refund0 : t < p.presaleEndTime → r.totalRefundedQuoteToken = 0
  claim0 : t < p.presaleEndTime ∨ p.totalDeposit < p.presaleMinimumCap → r.totalClaimedToken = 0
  refund : p.presaleEndTime ≤ t →
    r.totalRefundedQuoteToken + esum es a i (outstanding p r) ≤ refundPool p r
  claim : p.presaleEndTime ≤ t → p.presaleMinimumCap ≤ p.totalDeposit →
    r.totalClaimedToken + esum es a i (entitlement p r) ≤ sold p r + esum es a i Escrow.totalClaimedToken
  unused : p.totalPresaleRegistryCount ≤ i → r = Registry.fresh

/-- Invariant of an escrow at time `t`. -/
structure EscBook (t : Nat) (p : Presale) (r : Registry) (e : Escrow) : Prop where
  idx : e.registryIndex < p.totalPresaleRegistryCount
  limits : e.totalDeposit = 0 ∨
    (r.buyerMinimumDepositCap ≤ e.totalDeposit ∧ e.totalDeposit ≤ r.buyerMaximumDepositCap)
  cap : e.totalDeposit ≤ e.depositMaxCap
  capLe : e.depositMaxCap ≤ r.buyerMaximumDepositCap
  opened : castWhitelistMode p.whitelistMode = .ok .permissionless →
    e.registryIndex = 0 ∧ e.depositMaxCap = r.buyerMaximumDepositCap
  created : p.presaleStartTime ≤ e.createdAt
  refreshed0 : e.createdAt ≤ e.lastRefreshedAt
  refreshed : e.lastRefreshedAt ≤ t
  flag : e.isRemainingQuoteWithdrawn ≤ 1
  flag0 : t < p.presaleEndTime → e.isRemainingQuoteWithdrawn = 0
  claim0 : t < p.presaleEndTime ∨ p.totalDeposit < p.presaleMinimumCap →
    e.totalClaimedToken = 0 ∧ e.pendingClaimToken = 0
  claim : p.presaleEndTime ≤ t → p.presaleMinimumCap ≤ p.totalDeposit →
    e.totalClaimedToken + e.pendingClaimToken = 0 ∨
    (p.presaleEndTime ≤ e.lastRefreshedAt ∧
      e.totalClaimedToken + e.pendingClaimToken = claimableAt p r e e.lastRefreshedAt)

/-- Invariant of the recorded totals of a presale at time `t`. -/
structure Book (t : Nat) (a : Addr) (p : Presale) (es : AMap Addr Escrow) : Prop where
  totDep : p.totalDeposit = lsum Registry.totalDeposit p.registries
  totFee : p.totalDepositFee = lsum Registry.totalDepositFee p.registries
  totEsc : p.totalEscrow = lsum Registry.totalEscrow p.registries
  totCl : p.totalClaimedToken = lsum Registry.totalClaimedToken p.registries
  totRef : p.totalRefundedQuoteToken = lsum Registry.totalRefundedQuoteToken p.registries
  cap : p.presaleMode ≠ 1 → p.totalDeposit ≤ p.presaleMaximumCap
  bound : p.totalDeposit + p.totalDepositFee < u64Bound
  reg : ∀ (i : Nat) r, p.registries[i]? = some r → RegBook t a p es i r
  esc : ∀ x ∈ es, x.2.presale = a →
    ∃ r, p.registries[x.2.registryIndex]? = some r ∧ EscBook t p r x.2

/-! ### Changes of escrows belonging to other presales -/

/-- Two escrow lists agree on presale `a`. -/
structure SameFor (a : Addr) (es es' : AMap Addr Escrow) : Prop where
  sum : ∀ i f, esum es' a i f = esum es a i f
  mem : ∀ x ∈ es', x.2.presale = a → x ∈ es

theorem SameFor.refl (a : Addr) (es : AMap Addr Escrow) : SameFor a es es :=
  ⟨fun _ _ => rfl, fun _ h _ => h⟩

theorem SameFor.set_some {a : Addr} {es : AMap Addr Escrow} {k : Addr} {e e' : Escrow}
    (h : es.get? k = some e) (he : e.presale ≠ a) (he' : e'.presale ≠ a) : SameFor a es (es.set k e') := by
  constructor
  · intro i f
    have := AMap.sumBy_set_some (g := only a i f) (v' := e') h
    rw [only_miss he, only_miss he'] at this
    simpa using this
  · intro x hx hxa
    rcases AMap.mem_set hx with h1 | h1
    · subst h1; exact absurd hxa he'
    · exact h1

/-- Writing back the same value. -/
theorem SameFor.set_same {a : Addr} {es : AMap Addr Escrow} {k : Addr} {e : Escrow} (h : es.get? k = some e) :
    SameFor a es (es.set k e) := by
  constructor
  · intro i f
    have := AMap.sumBy_set_some (g := only a i f) (v' := e) h
    exact Nat.add_right_cancel this
  · intro x hx _
    rcases AMap.mem_set hx with h1 | h1
    · subst h1; exact AMap.get?_mem h
    · exact h1

theorem SameFor.set_none {a : Addr} {es : AMap Addr Escrow} {k : Addr} {e' : Escrow}
    (h : es.get? k = none) (he' : e'.presale ≠ a) : SameFor a es (es.set k e') := by
  constructor
  · intro i f
    have := AMap.sumBy_set_none (g := only a i f) (v' := e') h
    rw [only_miss he'] at this
    simpa using this
  · intro x hx hxa
    rcases AMap.mem_set hx with h1 | h1
    · subst h1; exact absurd hxa he'
    · exact h1

theorem SameFor.erase {a : Addr} {es : AMap Addr Escrow} {k : Addr} {e : Escrow}
    (h : es.get? k = some e) (he : e.presale ≠ a) : SameFor a es (es.erase k) := by
  constructor
  · intro i f
    have := AMap.sumBy_erase (g := only a i f) h
    rw [only_miss he] at this
    simpa using this
  · intro x hx _
    exact (AMap.erase_sublist es k).subset hx

theorem RegBook.frame {t : Nat} {a : Addr} {p : Presale} {es es' : AMap Addr Escrow} {i : Nat} {r : Registry}
    (h : ∀ f, esum es' a i f = esum es a i f) (B : RegBook t a p es i r) : RegBook t a p es' i r where
  count := by rw [h]; exact B.count
  dep := by rw [h]; exact B.dep
  fee := by rw [h]; exact B.fee
  depEq := by rw [h]; exact B.depEq
  feeEq := by rw [h]; exact B.feeEq
  refund0 := B.refund0
  claim0 := B.claim0
  refund := by rw [h]; exact B.refund
  claim := by rw [h, h]; exact B.claim
  unused := B.unused

theorem Book.frame {t : Nat} {a : Addr} {p : Presale} {es es' : AMap Addr Escrow} (h : SameFor a es es')
    (B : Book t a p es) : Book t a p es' where
  totDep := B.totDep
  totFee := B.totFee
  totEsc := B.totEsc
  totCl := B.totCl
  totRef := B.totRef
  cap := B.cap
  bound := B.bound
  reg := fun i r hr => (B.reg i r hr).frame (h.sum i)
  esc := fun x hx ha => B.esc x (h.mem x hx ha) ha

/-! ### Changes after the end of the sale -/

theorem RegBook.congr {t : Nat} {a : Addr} {p p' : Presale} {es : AMap Addr Escrow} {i : Nat} {r : Registry}
    (h : books p' = books p) (B : RegBook t a p es i r) : RegBook t a p' es i r := by
  have e1 : p'.presaleEndTime = p.presaleEndTime := (congrArg Presale.presaleEndTime h :)
  have e2 : p'.totalDeposit = p.totalDeposit := (congrArg Presale.totalDeposit h :)
  have e3 : p'.presaleMinimumCap = p.presaleMinimumCap := (congrArg Presale.presaleMinimumCap h :)
  have e4 : p'.totalPresaleRegistryCount = p.totalPresaleRegistryCount :=
    (congrArg Presale.totalPresaleRegistryCount h :)
  constructor
  · exact B.count
  · exact B.dep
  · exact B.fee
  · rw [e1]; exact B.depEq
  · rw [e1]; exact B.feeEq
  · rw [e1]; exact B.refund0
  · rw [e1, e2, e3]; exact B.claim0
  · rw [e1, refundPool_congr h rfl]
    have : esum es a i (outstanding p' r) = esum es a i (outstanding p r) := by
      apply esum_congr
      intro x _ _ _
      unfold outstanding
      rw [owedRefund_congr h rfl rfl rfl]
    rw [this]; exact B.refund
  · rw [e1, e2, e3, sold_congr h rfl]
    have : esum es a i (entitlement p' r) = esum es a i (entitlement p r) := by
      apply esum_congr
      intro x _ _ _
      rw [entitlement_congr h rfl rfl]
    rw [this]; exact B.claim
  · rw [e4]; exact B.unused

theorem EscBook.congr {t : Nat} {p p' : Presale} {r r' : Registry} {e : Escrow}
    (h : books p' = books p) (hr : registryBooks r' = registryBooks r) (B : EscBook t p r e) :
    EscBook t p' r' e := by
  have e1 : p'.presaleEndTime = p.presaleEndTime := (congrArg Presale.presaleEndTime h :)
  have e2 : p'.totalDeposit = p.totalDeposit := (congrArg Presale.totalDeposit h :)
  have e3 : p'.presaleMinimumCap = p.presaleMinimumCap := (congrArg Presale.presaleMinimumCap h :)
  have e4 : p'.totalPresaleRegistryCount = p.totalPresaleRegistryCount :=
    (congrArg Presale.totalPresaleRegistryCount h :)
  have e5 : p'.whitelistMode = p.whitelistMode := (congrArg Presale.whitelistMode h :)
  have e6 : p'.presaleStartTime = p.presaleStartTime := (congrArg Presale.presaleStartTime h :)
  have f1 : r'.buyerMinimumDepositCap = r.buyerMinimumDepositCap :=
    (congrArg Registry.buyerMinimumDepositCap hr :)
  have f2 : r'.buyerMaximumDepositCap = r.buyerMaximumDepositCap :=
    (congrArg Registry.buyerMaximumDepositCap hr :)
  constructor
  · rw [e4]; exact B.idx
  · rw [f1, f2]; exact B.limits
  · exact B.cap
  · rw [f2]; exact B.capLe
  · rw [e5, f2]; exact B.opened
  · rw [e6]; exact B.created
  · exact B.refreshed0
  · exact B.refreshed
  · exact B.flag
  · rw [e1]; exact B.flag0
  · rw [e1, e2, e3]; exact B.claim0
  · rw [e1, e2, e3, claimableAt_congr h hr rfl]; exact B.claim

theorem books_reg {p p' : Presale} (h : books p' = books p) {i : Nat} {r : Registry}
    (hr : p.registries[i]? = some r) :
    ∃ r', p'.registries[i]? = some r' ∧ registryBooks r' = registryBooks r := by
  have h1 : p'.registries.map registryBooks = p.registries.map registryBooks :=
    (congrArg Presale.registries h :)
  have h2 : (p.registries.map registryBooks)[i]? = some (registryBooks r) := by
    rw [List.getElem?_map, hr]; rfl
  rw [← h1, List.getElem?_map] at h2
  cases h3 : p'.registries[i]? with
  | none => rw [h3] at h2; cases h2
  | some r' => rw [h3] at h2; simp at h2; exact ⟨r', rfl, h2⟩

/-- Flags of the presale do not enter its books. -/
theorem Book.flags {t : Nat} {a : Addr} {p p' : Presale} {es : AMap Addr Escrow}
    (h : books p' = books p) (hr : p'.registries = p.registries) (h1 : p'.totalEscrow = p.totalEscrow)
    (h2 : p'.totalClaimedToken = p.totalClaimedToken)
    (h3 : p'.totalRefundedQuoteToken = p.totalRefundedQuoteToken) (B : Book t a p es) : Book t a p' es := by
  have e2 : p'.totalDeposit = p.totalDeposit := (congrArg Presale.totalDeposit h :)
  have e3 : p'.totalDepositFee = p.totalDepositFee := (congrArg Presale.totalDepositFee h :)
  have e4 : p'.presaleMode = p.presaleMode := (congrArg Presale.presaleMode h :)
  have e5 : p'.presaleMaximumCap = p.presaleMaximumCap := (congrArg Presale.presaleMaximumCap h :)
  constructor
  · rw [e2, hr]; exact B.totDep
  · rw [e3, hr]; exact B.totFee
  · rw [h1, hr]; exact B.totEsc
  · rw [h2, hr]; exact B.totCl
  · rw [h3, hr]; exact B.totRef
  · rw [e2, e4, e5]; exact B.cap
  · rw [e2, e3]; exact B.bound
  · intro i r hi; rw [hr] at hi; exact (B.reg i r hi).congr h
  · intro x hx ha
    obtain ⟨r, hr', hb⟩ := B.esc x hx ha
    exact ⟨r, by rw [hr]; exact hr', hb.congr h rfl⟩

theorem getElem?_set_ne' {α : Type} {l : List α} {i j : Nat} {x : α} (h : j ≠ i) : (l.set i x)[j]? = l[j]? :=
  List.getElem?_set_ne (Ne.symm h)

theorem esum_set_other {es : AMap Addr Escrow} {a k : Addr} {e e' : Escrow} {i : Nat}
    (hk : es.get? k = some e) (h1 : e.registryIndex ≠ i) (h2 : e'.registryIndex ≠ i) (f : Escrow → Nat) :
    esum (es.set k e') a i f = esum es a i f := by
  have := AMap.sumBy_set_some (g := only a i f) (v' := e') hk
  rw [only_miss_idx h1, only_miss_idx h2] at this
  simpa using this

theorem esum_set_hit {es : AMap Addr Escrow} {a k : Addr} {e e' : Escrow} {i : Nat}
    (hk : es.get? k = some e) (h1 : e.presale = a) (h2 : e.registryIndex = i)
    (h1' : e'.presale = a) (h2' : e'.registryIndex = i) (f : Escrow → Nat) :
    esum (es.set k e') a i f + f e = esum es a i f + f e' := by
  have := AMap.sumBy_set_some (g := only a i f) (v' := e') hk
  rwa [only_hit h1 h2, only_hit h1' h2'] at this

/-- One escrow and the counters of its registry change after the end of the sale. -/
theorem Book.settle {t : Nat} {a k : Addr} {p p' : Presale} {es : AMap Addr Escrow} {e e' : Escrow}
    {r r' : Registry}
    (B : Book t a p es) (hend : p.presaleEndTime ≤ t)
    (hk : es.get? k = some e) (ha : e.presale = a) (hr : p.registries[e.registryIndex]? = some r)
    (ha' : e'.presale = a) (hi' : e'.registryIndex = e.registryIndex)
    (hdep : e'.totalDeposit = e.totalDeposit) (hfee : e'.totalDepositFee = e.totalDepositFee)
    (hE : EscBook t p r e')
    (hbooks : books p' = books p) (hregs : p'.registries = p.registries.set e.registryIndex r')
    (hrb : registryBooks r' = registryBooks r) (hcount : r'.totalEscrow = r.totalEscrow)
    (hesc : p'.totalEscrow = p.totalEscrow)
    (hcl : p'.totalClaimedToken + r.totalClaimedToken = p.totalClaimedToken + r'.totalClaimedToken)
    (hrf : p'.totalRefundedQuoteToken + r.totalRefundedQuoteToken
      = p.totalRefundedQuoteToken + r'.totalRefundedQuoteToken)
    (hrefund : r'.totalRefundedQuoteToken + outstanding p r e' ≤ r.totalRefundedQuoteToken + outstanding p r e)
    (hclaim : r'.totalClaimedToken + e.totalClaimedToken ≤ r.totalClaimedToken + e'.totalClaimedToken)
    (hclaim0 : p.totalDeposit < p.presaleMinimumCap → r'.totalClaimedToken = 0) :
    Book t a p' (es.set k e') := by
  have e2 : p'.totalDeposit = p.totalDeposit := (congrArg Presale.totalDeposit hbooks :)
  have e3 : p'.totalDepositFee = p.totalDepositFee := (congrArg Presale.totalDepositFee hbooks :)
  have e4 : p'.presaleMode = p.presaleMode := (congrArg Presale.presaleMode hbooks :)
  have e5 : p'.presaleMaximumCap = p.presaleMaximumCap := (congrArg Presale.presaleMaximumCap hbooks :)
  have e6 : p'.presaleEndTime = p.presaleEndTime := (congrArg Presale.presaleEndTime hbooks :)
  have e7 : p'.presaleMinimumCap = p.presaleMinimumCap := (congrArg Presale.presaleMinimumCap hbooks :)
  have e8 : p'.totalPresaleRegistryCount = p.totalPresaleRegistryCount :=
    (congrArg Presale.totalPresaleRegistryCount hbooks :)
  have f1 : r'.totalDeposit = r.totalDeposit := (congrArg Registry.totalDeposit hrb :)
  have f2 : r'.totalDepositFee = r.totalDepositFee := (congrArg Registry.totalDepositFee hrb :)
  have hlt := (List.getElem?_eq_some_iff.1 hr).1
  have s1 := lsum_set (g := Registry.totalDeposit) (x' := r') hr
  have s2 := lsum_set (g := Registry.totalDepositFee) (x' := r') hr
  have s3 := lsum_set (g := Registry.totalEscrow) (x' := r') hr
  have s4 := lsum_set (g := Registry.totalClaimedToken) (x' := r') hr
  have s5 := lsum_set (g := Registry.totalRefundedQuoteToken) (x' := r') hr
  have b1 := B.totDep
  have b2 := B.totFee
  have b3 := B.totEsc
  have b4 := B.totCl
  have b5 := B.totRef
  constructor
  · rw [hregs]; omega
  · rw [hregs]; omega
  · rw [hregs]; omega
  · rw [hregs]; omega
  · rw [hregs]; omega
  · rw [e2, e4, e5]; exact B.cap
  · rw [e2, e3]; exact B.bound
  · intro j rj hj
    rw [hregs] at hj
    by_cases hji : j = e.registryIndex
    · subst hji
      rw [List.getElem?_set_self hlt] at hj
      cases hj
      have R := B.reg _ r hr
      have S := esum_set_hit hk ha rfl ha' hi'
      refine ⟨?_, ?_, ?_, ?_, ?_, ?_, ?_, ?_, ?_, ?_⟩
      · have := S (fun _ => 1); have := R.count; omega
      · have := S Escrow.totalDeposit; have := R.dep; omega
      · have := S Escrow.totalDepositFee; have := R.fee; omega
      · rw [e6]; omega
      · rw [e6]; omega
      · rw [e6]; omega
      · rw [e6, e2, e7]; intro h; exact hclaim0 (by omega)
      · intro _
        have o1 : esum (es.set k e') a e.registryIndex (outstanding p' r') =
            esum (es.set k e') a e.registryIndex (outstanding p r) := by
          apply esum_congr
          intro x _ _ _
          unfold outstanding
          rw [owedRefund_congr hbooks hrb rfl rfl]
        have := S (outstanding p r)
        have := R.refund hend
        rw [o1, refundPool_congr hbooks hrb]
        omega
      · intro _ hc
        have o1 : esum (es.set k e') a e.registryIndex (entitlement p' r') =
            esum (es.set k e') a e.registryIndex (entitlement p r) := by
          apply esum_congr
          intro x _ _ _
          rw [entitlement_congr hbooks hrb rfl]
        have s6 := S (entitlement p r)
        have s7 := S Escrow.totalClaimedToken
        have := R.claim hend (by omega)
        rw [entitlement_congr rfl rfl hdep] at s6
        rw [o1, sold_congr hbooks hrb]
        omega
      · rw [e8]
        intro h
        exact absurd hE.idx (by rw [hi']; omega)
    · rw [getElem?_set_ne' hji] at hj
      exact ((B.reg j rj hj).congr hbooks).frame
        (esum_set_other hk (Ne.symm hji) (by rw [hi']; exact Ne.symm hji))
  · intro x hx hxa
    rcases AMap.mem_set hx with h1 | h1
    · subst h1
      refine ⟨r', ?_, hE.congr hbooks hrb⟩
      rw [hregs, hi', List.getElem?_set_self hlt]
    · obtain ⟨rx, hrx, hb⟩ := B.esc x h1 hxa
      obtain ⟨rx', hrx', hb'⟩ := books_reg hbooks hrx
      exact ⟨rx', hrx', hb.congr hbooks hb'⟩

/-- An escrow with nothing outstanding is removed. -/
theorem Book.remove {t : Nat} {a k : Addr} {p : Presale} {es : AMap Addr Escrow} {e : Escrow}
    {r : Registry} (B : Book t a p es)
    (hk : es.get? k = some e) (ha : e.presale = a) (hr : p.registries[e.registryIndex]? = some r)
    (hpos : 1 ≤ r.totalEscrow)
    (hopen : t < p.presaleEndTime → e.totalDeposit = 0 ∧ e.totalDepositFee = 0)
    (hclaim : p.presaleEndTime ≤ t → p.presaleMinimumCap ≤ p.totalDeposit →
      e.totalClaimedToken ≤ entitlement p r e) :
    Book t a (p.uncounted e.registryIndex r) (es.erase k) := by
  have hbooks : books (p.uncounted e.registryIndex r) = books p := by
    simp only [books, Presale.uncounted]
    congr 1
    exact map_set_same _ hr rfl
  have hlt := (List.getElem?_eq_some_iff.1 hr).1
  generalize hr'd : ({ r with totalEscrow := r.totalEscrow - 1 } : Registry) = r' at *
  have hregs : (p.uncounted e.registryIndex r).registries = p.registries.set e.registryIndex r' := by
    rw [← hr'd]; rfl
  have hrb : registryBooks r' = registryBooks r := by rw [← hr'd]; rfl
  have g1 : r'.totalDeposit = r.totalDeposit := by rw [← hr'd]
  have g2 : r'.totalDepositFee = r.totalDepositFee := by rw [← hr'd]
  have g3 : r'.totalClaimedToken = r.totalClaimedToken := by rw [← hr'd]
  have g4 : r'.totalRefundedQuoteToken = r.totalRefundedQuoteToken := by rw [← hr'd]
  have g5 : r'.totalEscrow = r.totalEscrow - 1 := by rw [← hr'd]
  have s1 := lsum_set (g := Registry.totalDeposit) (x' := r') hr
  have s2 := lsum_set (g := Registry.totalDepositFee) (x' := r') hr
  have s3 := lsum_set (g := Registry.totalEscrow) (x' := r') hr
  have s4 := lsum_set (g := Registry.totalClaimedToken) (x' := r') hr
  have s5 := lsum_set (g := Registry.totalRefundedQuoteToken) (x' := r') hr
  have b1 := B.totDep
  have b2 := B.totFee
  have b3 := B.totEsc
  have b4 := B.totCl
  have b5 := B.totRef
  have q1 : (p.uncounted e.registryIndex r).totalDeposit = p.totalDeposit := rfl
  have q2 : (p.uncounted e.registryIndex r).totalDepositFee = p.totalDepositFee := rfl
  have q3 : (p.uncounted e.registryIndex r).totalEscrow = p.totalEscrow - 1 := rfl
  have q4 : (p.uncounted e.registryIndex r).totalClaimedToken = p.totalClaimedToken := rfl
  have q5 : (p.uncounted e.registryIndex r).totalRefundedQuoteToken = p.totalRefundedQuoteToken := rfl
  constructor
  · rw [hregs]; omega
  · rw [hregs]; omega
  · rw [hregs]; omega
  · rw [hregs]; omega
  · rw [hregs]; omega
  · exact B.cap
  · exact B.bound
  · intro j rj hj
    rw [hregs] at hj
    by_cases hji : j = e.registryIndex
    · subst hji
      rw [List.getElem?_set_self hlt] at hj
      cases hj
      have R := B.reg _ r hr
      have S : ∀ f, esum (es.erase k) a e.registryIndex f + f e = esum es a e.registryIndex f := by
        intro f
        have := AMap.sumBy_erase (g := only a e.registryIndex f) hk
        rwa [only_hit ha rfl] at this
      refine ⟨?_, ?_, ?_, ?_, ?_, ?_, ?_, ?_, ?_, ?_⟩
      · have := S (fun _ => 1); have := R.count; omega
      · have := S Escrow.totalDeposit; have := R.dep; omega
      · have := S Escrow.totalDepositFee; have := R.fee; omega
      · intro h
        have h : t < p.presaleEndTime := h
        have := S Escrow.totalDeposit; have := R.depEq h; have := hopen h; omega
      · intro h
        have h : t < p.presaleEndTime := h
        have := S Escrow.totalDepositFee; have := R.feeEq h; have := hopen h; omega
      · intro h; rw [g4]; exact R.refund0 h
      · intro h; rw [g3]; exact R.claim0 h
      · intro h
        have o1 : esum (es.erase k) a e.registryIndex (outstanding (p.uncounted e.registryIndex r) r') =
            esum (es.erase k) a e.registryIndex (outstanding p r) := by
          apply esum_congr
          intro x _ _ _
          unfold outstanding
          rw [owedRefund_congr hbooks hrb rfl rfl]
        have := S (outstanding p r)
        have := R.refund h
        rw [o1, refundPool_congr hbooks hrb]
        omega
      · intro h hc
        have o1 : esum (es.erase k) a e.registryIndex (entitlement (p.uncounted e.registryIndex r) r') =
            esum (es.erase k) a e.registryIndex (entitlement p r) := by
          apply esum_congr
          intro x _ _ _
          rw [entitlement_congr hbooks hrb rfl]
        have s6 := S (entitlement p r)
        have s7 := S Escrow.totalClaimedToken
        have := R.claim h hc
        have := hclaim h hc
        rw [o1, sold_congr hbooks hrb]
        omega
      · intro h
        obtain ⟨_, h1, hb⟩ := B.esc (k, e) (AMap.get?_mem hk) ha
        exact absurd hb.idx (Nat.not_lt.2 h)
    · rw [getElem?_set_ne' hji] at hj
      refine ((B.reg j rj hj).congr hbooks).frame ?_
      intro f
      have := AMap.sumBy_erase (g := only a j f) hk
      rw [only_miss_idx (Ne.symm hji)] at this
      simpa using this
  · intro x hx hxa
    obtain ⟨rx, hrx, hb⟩ := B.esc x ((AMap.erase_sublist es k).subset hx) hxa
    obtain ⟨rx', hrx', hb'⟩ := books_reg hbooks hrx
    exact ⟨rx', hrx', hb.congr hbooks hb'⟩

/-! ### Changes during the sale -/

/-- An escrow of another registry or with unchanged data keeps its invariant while the sale is open. -/
theorem EscBook.whileOpen {t : Nat} {p p' : Presale} {r r' : Registry} {e : Escrow}
    (B : EscBook t p r e) (ht : t < p.presaleEndTime) (h : terms p' = terms p)
    (hend : p'.presaleEndTime = p.presaleEndTime) (hr : registryTerms r' = registryTerms r) :
    EscBook t p' r' e := by
  have e4 : p'.totalPresaleRegistryCount = p.totalPresaleRegistryCount :=
    (congrArg Presale.totalPresaleRegistryCount h :)
  have e5 : p'.whitelistMode = p.whitelistMode := (congrArg Presale.whitelistMode h :)
  have e6 : p'.presaleStartTime = p.presaleStartTime := (congrArg Presale.presaleStartTime h :)
  have f1 : r'.buyerMinimumDepositCap = r.buyerMinimumDepositCap :=
    (congrArg Registry.buyerMinimumDepositCap hr :)
  have f2 : r'.buyerMaximumDepositCap = r.buyerMaximumDepositCap :=
    (congrArg Registry.buyerMaximumDepositCap hr :)
  constructor
  · rw [e4]; exact B.idx
  · rw [f1, f2]; exact B.limits
  · exact B.cap
  · rw [f2]; exact B.capLe
  · rw [e5, f2]; exact B.opened
  · rw [e6]; exact B.created
  · exact B.refreshed0
  · exact B.refreshed
  · exact B.flag
  · rw [hend]; exact B.flag0
  · intro _; exact B.claim0 (Or.inl ht)
  · rw [hend]; omega

/-- An escrow `k` is created (`old = none`) or changed while the sale is open; `f₀` is the contribution of
the previous escrow to a sum. -/
theorem Book.whileOpen {t : Nat} {a k : Addr} {p p' : Presale} {es : AMap Addr Escrow} {e' : Escrow}
    {r r' : Registry} (f₀ : (Escrow → Nat) → Nat)
    (B : Book t a p es) (ht : t < p.presaleEndTime)
    (hr : p.registries[e'.registryIndex]? = some r) (ha' : e'.presale = a)
    (hsum : ∀ f, esum (es.set k e') a e'.registryIndex f + f₀ f = esum es a e'.registryIndex f + f e')
    (hother : ∀ j f, j ≠ e'.registryIndex → esum (es.set k e') a j f = esum es a j f)
    (hE : EscBook t p r e')
    (hterms : terms p' = terms p) (hend : p'.presaleEndTime = p.presaleEndTime)
    (hregs : p'.registries = p.registries.set e'.registryIndex r')
    (hrt : registryTerms r' = registryTerms r)
    (hcount : r'.totalEscrow + f₀ (fun _ => 1) = r.totalEscrow + 1)
    (hdep : r'.totalDeposit + f₀ Escrow.totalDeposit = r.totalDeposit + e'.totalDeposit)
    (hfee : r'.totalDepositFee + f₀ Escrow.totalDepositFee = r.totalDepositFee + e'.totalDepositFee)
    (hrcl : r'.totalClaimedToken = r.totalClaimedToken)
    (hrrf : r'.totalRefundedQuoteToken = r.totalRefundedQuoteToken)
    (hpesc : p'.totalEscrow + r.totalEscrow = p.totalEscrow + r'.totalEscrow)
    (hpdep : p'.totalDeposit + r.totalDeposit = p.totalDeposit + r'.totalDeposit)
    (hpfee : p'.totalDepositFee + r.totalDepositFee = p.totalDepositFee + r'.totalDepositFee)
    (hpcl : p'.totalClaimedToken = p.totalClaimedToken)
    (hprf : p'.totalRefundedQuoteToken = p.totalRefundedQuoteToken)
    (hcap : p.presaleMode ≠ 1 → p'.totalDeposit ≤ p.presaleMaximumCap)
    (hbound : p'.totalDeposit + p'.totalDepositFee < u64Bound) :
    Book t a p' (es.set k e') := by
  have e4 : p'.presaleMode = p.presaleMode := (congrArg Presale.presaleMode hterms :)
  have e5 : p'.presaleMaximumCap = p.presaleMaximumCap := (congrArg Presale.presaleMaximumCap hterms :)
  have e8 : p'.totalPresaleRegistryCount = p.totalPresaleRegistryCount :=
    (congrArg Presale.totalPresaleRegistryCount hterms :)
  have hlt := (List.getElem?_eq_some_iff.1 hr).1
  have s1 := lsum_set (g := Registry.totalDeposit) (x' := r') hr
  have s2 := lsum_set (g := Registry.totalDepositFee) (x' := r') hr
  have s3 := lsum_set (g := Registry.totalEscrow) (x' := r') hr
  have s4 := lsum_set (g := Registry.totalClaimedToken) (x' := r') hr
  have s5 := lsum_set (g := Registry.totalRefundedQuoteToken) (x' := r') hr
  have b1 := B.totDep
  have b2 := B.totFee
  have b3 := B.totEsc
  have b4 := B.totCl
  have b5 := B.totRef
  constructor
  · rw [hregs]; omega
  · rw [hregs]; omega
  · rw [hregs]; omega
  · rw [hregs]; omega
  · rw [hregs]; omega
  · rw [e4, e5]; exact hcap
  · exact hbound
  · intro j rj hj
    rw [hregs] at hj
    by_cases hji : j = e'.registryIndex
    · subst hji
      rw [List.getElem?_set_self hlt] at hj
      cases hj
      have R := B.reg _ r hr
      have h1 := R.depEq ht
      have h2 := R.feeEq ht
      have h3 := hsum Escrow.totalDeposit
      have h4 := hsum Escrow.totalDepositFee
      have h5 := hsum (fun _ => 1)
      have h6 := R.count
      refine ⟨?_, ?_, ?_, ?_, ?_, ?_, ?_, ?_, ?_, ?_⟩
      · omega
      · omega
      · omega
      · intro _; omega
      · intro _; omega
      · intro _; rw [hrrf]; exact R.refund0 ht
      · intro _; rw [hrcl]; exact R.claim0 (Or.inl ht)
      · rw [hend]; omega
      · rw [hend]; omega
      · rw [e8]; intro h; exact absurd hE.idx (Nat.not_lt.2 h)
    · rw [getElem?_set_ne' hji] at hj
      have R := (B.reg j rj hj).frame (es' := es.set k e') (fun f => hother j f hji)
      refine ⟨R.count, R.dep, R.fee, ?_, ?_, ?_, ?_, ?_, ?_, ?_⟩
      · intro _; exact R.depEq ht
      · intro _; exact R.feeEq ht
      · intro _; exact R.refund0 ht
      · intro _; exact R.claim0 (Or.inl ht)
      · rw [hend]; omega
      · rw [hend]; omega
      · rw [e8]; exact R.unused
  · intro x hx hxa
    rcases AMap.mem_set hx with h1 | h1
    · subst h1
      refine ⟨r', ?_, hE.whileOpen ht hterms hend hrt⟩
      rw [hregs, List.getElem?_set_self hlt]
    · obtain ⟨rx, hrx, hb⟩ := B.esc x h1 hxa
      by_cases hxi : x.2.registryIndex = e'.registryIndex
      · refine ⟨r', ?_, ?_⟩
        · rw [hregs, hxi, List.getElem?_set_self hlt]
        · rw [hxi, hr] at hrx; cases hrx
          exact hb.whileOpen ht hterms hend hrt
      · refine ⟨rx, ?_, hb.whileOpen ht hterms hend rfl⟩
        rw [hregs, getElem?_set_ne' hxi]; exact hrx

/-! ### The end of the sale -/

/-- The entitlements of a registry's escrows never exceed what the registry sold. -/
theorem entitlements_le {es : AMap Addr Escrow} {a : Addr} {i : Nat} {p : Presale} {r : Registry}
    (hb : p.immediateReleaseBps ≤ 10000) (hd : esum es a i Escrow.totalDeposit ≤ r.totalDeposit) :
    esum es a i (entitlement p r) ≤ sold p r := by
  have hi := immediatePart_le (s := sold p r) hb
  generalize hI : immediatePart (sold p r) p.immediateReleaseBps = I at *
  have h1 := esum_floor es a i Escrow.totalDeposit I r.totalDeposit
  have h2 := esum_floor es a i Escrow.totalDeposit (sold p r - I) r.totalDeposit
  have h3 : I * esum es a i Escrow.totalDeposit / r.totalDeposit ≤ I := mul_div_le_of_le hd
  have h4 : (sold p r - I) * esum es a i Escrow.totalDeposit / r.totalDeposit ≤ sold p r - I :=
    mul_div_le_of_le hd
  have h5 : esum es a i (entitlement p r) ≤
      esum es a i (fun e => I * e.totalDeposit / r.totalDeposit +
        (sold p r - I) * e.totalDeposit / r.totalDeposit) := by
    apply esum_le
    intro x _ _ _
    unfold entitlement
    rw [hI]
    split
    · exact Nat.zero_le _
    · exact Nat.le_refl _
  rw [esum_add] at h5
  omega

theorem refunds_le {es : AMap Addr Escrow} {a : Addr} {i : Nat} {p : Presale} {r : Registry}
    (hd : esum es a i Escrow.totalDeposit ≤ r.totalDeposit)
    (hf : esum es a i Escrow.totalDepositFee ≤ r.totalDepositFee) :
    esum es a i (owedRefund p r) ≤ refundPool p r := by
  unfold refundPool
  by_cases hfail : p.totalDeposit < p.presaleMinimumCap
  · rw [if_pos hfail]
    have : esum es a i (owedRefund p r) =
        esum es a i (fun e => e.totalDeposit + e.totalDepositFee) := by
      apply esum_congr
      intro x _ _ _
      unfold owedRefund
      rw [if_pos hfail]
    rw [this, esum_add]
    omega
  · rw [if_neg hfail]
    by_cases hm : p.presaleMode = 1
    · rw [if_pos hm]
      have h1 := esum_floor es a i Escrow.totalDeposit (registrySurplus p r) r.totalDeposit
      have h2 := esum_floor es a i Escrow.totalDepositFee (registryFeeRefund p r) r.totalDepositFee
      have h3 : registrySurplus p r * esum es a i Escrow.totalDeposit / r.totalDeposit ≤
        registrySurplus p r := mul_div_le_of_le hd
      have h4 : registryFeeRefund p r * esum es a i Escrow.totalDepositFee / r.totalDepositFee ≤
        registryFeeRefund p r := mul_div_le_of_le hf
      have : esum es a i (owedRefund p r) =
          esum es a i (fun e => registrySurplus p r * e.totalDeposit / r.totalDeposit +
            registryFeeRefund p r * e.totalDepositFee / r.totalDepositFee) := by
        apply esum_congr
        intro x _ _ _
        unfold owedRefund refundDeposit refundFee
        rw [if_neg hfail, if_pos hm, if_pos hm, Nat.mul_comm, Nat.mul_comm x.2.totalDepositFee]
      rw [this, esum_add]
      omega
    · rw [if_neg hm]
      rw [esum_zero]
      intro x _ _ _
      unfold owedRefund refundDeposit refundFee
      rw [if_neg hfail, if_neg hm, if_neg hm]

/-- The sale ends: by the passing of time, or because the schedule is moved. -/
theorem Book.mature {t t' : Nat} {a : Addr} {p p' : Presale} {es : AMap Addr Escrow}
    (B : Book t a p es) (ht : t < p.presaleEndTime) (htt : t ≤ t') (hbps : p'.immediateReleaseBps ≤ 10000)
    (hterms : terms p' = terms p) (hregs : p'.registries = p.registries)
    (h1 : p'.totalDeposit = p.totalDeposit) (h2 : p'.totalDepositFee = p.totalDepositFee)
    (h3 : p'.totalEscrow = p.totalEscrow) (h4 : p'.totalClaimedToken = p.totalClaimedToken)
    (h5 : p'.totalRefundedQuoteToken = p.totalRefundedQuoteToken)
    (hend : p'.presaleEndTime ≤ t') : Book t' a p' es := by
  have e4 : p'.presaleMode = p.presaleMode := (congrArg Presale.presaleMode hterms :)
  have e5 : p'.presaleMaximumCap = p.presaleMaximumCap := (congrArg Presale.presaleMaximumCap hterms :)
  have e8 : p'.totalPresaleRegistryCount = p.totalPresaleRegistryCount :=
    (congrArg Presale.totalPresaleRegistryCount hterms :)
  have e9 : p'.whitelistMode = p.whitelistMode := (congrArg Presale.whitelistMode hterms :)
  have e10 : p'.presaleStartTime = p.presaleStartTime := (congrArg Presale.presaleStartTime hterms :)
  constructor
  · rw [h1, hregs]; exact B.totDep
  · rw [h2, hregs]; exact B.totFee
  · rw [h3, hregs]; exact B.totEsc
  · rw [h4, hregs]; exact B.totCl
  · rw [h5, hregs]; exact B.totRef
  · rw [e4, e5, h1]; exact B.cap
  · rw [h1, h2]; exact B.bound
  · intro i r hr
    rw [hregs] at hr
    have R := B.reg i r hr
    refine ⟨R.count, R.dep, R.fee, ?_, ?_, ?_, ?_, ?_, ?_, ?_⟩
    · omega
    · omega
    · omega
    · intro _; exact R.claim0 (Or.inl ht)
    · intro _
      rw [R.refund0 ht, Nat.zero_add]
      refine Nat.le_trans ?_ (refunds_le R.dep R.fee)
      apply esum_le
      intro x _ _ _
      unfold outstanding
      split
      · exact Nat.zero_le _
      · exact Nat.le_refl _
    · intro _ _
      rw [R.claim0 (Or.inl ht), Nat.zero_add]
      exact Nat.le_trans (entitlements_le hbps R.dep) (Nat.le_add_right _ _)
    · rw [e8]; exact R.unused
  · intro x hx ha
    obtain ⟨r, hr, E⟩ := B.esc x hx ha
    refine ⟨r, by rw [hregs]; exact hr, ?_⟩
    have c0 := E.claim0 (Or.inl ht)
    have := E.refreshed
    refine ⟨?_, E.limits, E.cap, E.capLe, ?_, ?_, E.refreshed0, by omega, E.flag, ?_, ?_, ?_⟩
    · rw [e8]; exact E.idx
    · rw [e9]; exact E.opened
    · rw [e10]; exact E.created
    · omega
    · intro _; exact c0
    · intro _ _; exact Or.inl (by omega)

/-- Time passes. -/
theorem Book.tick {t t' : Nat} {a : Addr} {p : Presale} {es : AMap Addr Escrow}
    (B : Book t a p es) (htt : t ≤ t') (hbps : p.immediateReleaseBps ≤ 10000) : Book t' a p es := by
  by_cases hc : t < p.presaleEndTime ∧ p.presaleEndTime ≤ t'
  · exact B.mature hc.1 htt hbps rfl rfl rfl rfl rfl rfl rfl hc.2
  · have hiff : t' < p.presaleEndTime ↔ t < p.presaleEndTime := by omega
    have hiff' : p.presaleEndTime ≤ t' ↔ p.presaleEndTime ≤ t := by omega
    refine ⟨B.totDep, B.totFee, B.totEsc, B.totCl, B.totRef, B.cap, B.bound, ?_, ?_⟩
    · intro i r hr
      have R := B.reg i r hr
      exact ⟨R.count, R.dep, R.fee, by rw [hiff]; exact R.depEq, by rw [hiff]; exact R.feeEq,
        by rw [hiff]; exact R.refund0, by rw [hiff]; exact R.claim0, by rw [hiff']; exact R.refund,
        by rw [hiff']; exact R.claim, R.unused⟩
    · intro x hx ha
      obtain ⟨r, hr, E⟩ := B.esc x hx ha
      have := E.refreshed
      exact ⟨r, hr, E.idx, E.limits, E.cap, E.capLe, E.opened, E.created, E.refreshed0, by omega, E.flag,
        by rw [hiff]; exact E.flag0, by rw [hiff]; exact E.claim0, by rw [hiff']; exact E.claim⟩

end Verif
