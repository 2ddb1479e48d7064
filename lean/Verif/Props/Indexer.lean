import Verif.SpecIndexer
import Verif.Props.Capstone
import Verif.Props.Ledger
import Verif.Props.Squat
/-!
# C112: totals, limits and vaults, read from raw account data
-/

namespace Verif
open Spec

/-- Data with a type's discriminator is the account the state holds there. -/
theorem Tracks.at {K : Keys} {b : Bank} {w : World} (T : Tracks programDiscs K b w) {k : Kind} {a : Addr} {d : Bytes}
    (hd : b.data a = some d) (h8 : d.take 8 = accountBytes k) : Stored w k a (accountAt K d k) := by
  by_cases hs : ∃ k v, Stored w k a v
  · obtain ⟨k0, v, hv⟩ := hs
    have e := T.rep.data k0 a v hv
    rw [hd] at e
    have hr := T.reach.read_iff T.clock T.named T.rep k0 a
    rw [storedAs_iff.2 hv, hd, Option.bind_some] at hr
    obtain ⟨g1, -, g3⟩ := (C77_account K k0 d v).1 hr
    have : k = k0 := by
      refine C77_distinct.1 k k0 ?_
      rw [C77_bytes.1, C77_bytes.1, ← h8, g1]
    subst this
    rw [← g3]
    exact hv
  · rw [T.rep.empty a fun k v h => hs ⟨k, v, h⟩] at hd
    cases hd

/-- Conversely what the state holds has its data. -/
theorem Tracks.data {K : Keys} {b : Bank} {w : World} (T : Tracks programDiscs K b w) {k : Kind} {a : Addr} {v : k.Value}
    (hv : Stored w k a v) : ∃ d, b.data a = some d ∧ d.take 8 = accountBytes k ∧ accountAt K d k = v := by
  have e := T.rep.data k a v hv
  have hr := T.reach.read_iff T.clock T.named T.rep k a
  rw [storedAs_iff.2 hv, e, Option.bind_some] at hr
  obtain ⟨g1, -, g3⟩ := (C77_account K k _ v).1 hr
  exact ⟨_, e, g1, g3.symm⟩

/-- The escrows' data, in the order of the state. -/
def escrowData (b : Bank) (w : World) : List (Addr × Bytes) :=
  w.escrows.map fun x => (x.1, (b.data x.1).getD [])

theorem Tracks.allEscrows {K : Keys} {b : Bank} {w : World} (T : Tracks programDiscs K b w) :
    AllEscrows b (escrowData b w) := by
  have hn := T.reach.winv.core.nodup
  constructor
  · unfold escrowData
    rw [List.map_map]
    exact hn
  · intro k d
    constructor
    · intro h
      obtain ⟨x, hx, e⟩ := List.mem_map.1 h
      cases e
      have hs : Stored w .escrow x.1 x.2 := AMap.mem_get? hn hx
      obtain ⟨d, h1, h2, -⟩ := T.data hs
      rw [h1]
      exact ⟨rfl, h2⟩
    · rintro ⟨h1, h2⟩
      have hs := T.at h1 h2
      refine List.mem_map.2 ⟨(k, accountAt K d .escrow), AMap.get?_mem hs, ?_⟩
      simp only [h1, Option.getD_some]

theorem Tracks.perm {K : Keys} {b : Bank} {w : World} (T : Tracks programDiscs K b w) {found : List (Addr × Bytes)}
    (F : AllEscrows b found) : found.Perm (escrowData b w) := by
  refine (List.perm_ext_iff_of_nodup (List.Nodup.of_map _ F.once) (List.Nodup.of_map _ T.allEscrows.once)).2 fun x => ?_
  obtain ⟨k, d⟩ := x
  rw [F.all, T.allEscrows.all]

/-- Sums over the data are sums over the state's escrows. -/
theorem Tracks.sum {K : Keys} {b : Bank} {w : World} (T : Tracks programDiscs K b w) {found : List (Addr × Bytes)}
    (F : AllEscrows b found) (f : Escrow → Nat) :
    (found.map fun x => f (escrowAt K x.2)).sum = (w.escrows.map fun x => f x.2).sum := by
  rw [((T.perm F).map _).sum_eq, escrowData, List.map_map]
  congr 1
  refine List.map_congr_left fun x hx => ?_
  have hs : Stored w .escrow x.1 x.2 := AMap.mem_get? T.reach.winv.core.nodup hx
  obtain ⟨d, h1, -, h3⟩ := T.data hs
  have h3' : escrowAt K d = x.2 := h3
  simp only [Function.comp, h1, Option.getD_some, h3']

theorem sum_filter_map {α : Type} (l : List α) (q : α → Prop) [DecidablePred q] (f : α → Nat) :
    ((l.filter fun x => decide (q x)).map f).sum = (l.map fun x => if q x then f x else 0).sum := by
  induction l with
  | nil => rfl
  | cons x l ih =>
    by_cases h : q x
    · rw [List.filter_cons_of_pos (by simpa using h), List.map_cons, List.sum_cons, ih, List.map_cons, List.sum_cons,
        if_pos h]
    · rw [List.filter_cons_of_neg (by simpa using h), ih, List.map_cons, List.sum_cons, if_neg h, Nat.zero_add]

theorem Tracks.escrowSum {K : Keys} {b : Bank} {w : World} (T : Tracks programDiscs K b w)
    {found : List (Addr × Bytes)} (F : AllEscrows b found) (a : Addr) (i : Nat) (g : Bytes → Nat) (f : Escrow → Nat)
    (hg : ∀ d, g d = f (escrowAt K d)) : ((escrowsIn K found a i).map g).sum = Spec.escrowSum w.escrows a i f := by
  unfold escrowsIn Spec.escrowSum
  rw [sum_filter_map, List.map_map]
  rw [← T.sum F (fun e => if e.presale = a ∧ e.registryIndex = i then f e else 0)]
  congr 1
  refine List.map_congr_left fun x _ => ?_
  simp only [Function.comp, hg]
  rfl

/-- **C112** (totals). Whatever calls were made since an empty deployment, read every escrow's data: the recorded numbers
of a sale, at their offsets, are the sums over its registries; each registry's number of escrows is the number of escrow
accounts found, and its deposits and fees are the sums over them until the sale ends, and bound them after. -/
theorem C112_totals (P : ProgIds) (K : Keys) {b0 : Bank} (G : BankGenesis b0) {ops : List BOp} (hk : ∀ o ∈ ops, o.Keyed)
    {found : List (Addr × Bytes)} (F : AllEscrows (brun P programDiscs programSelectors K b0 ops) found) {a : Addr}
    {d : Bytes} (hd : (brun P programDiscs programSelectors K b0 ops).data a = some d)
    (h8 : d.take 8 = accountBytes .presale) :
    numAt d 248 8 = registriesSum d 8 ∧ numAt d 336 8 = registriesSum d 56 ∧ numAt d 256 8 = registriesSum d 16 ∧
    ∀ i < 5,
      numAt d (472 + 160 * i + 16) 8 = (escrowsIn K found a i).length ∧
      sumAt (escrowsIn K found a i) 72 ≤ numAt d (472 + 160 * i + 8) 8 ∧
      sumAt (escrowsIn K found a i) 120 ≤ numAt d (472 + 160 * i + 56) 8 ∧
      ((brun P programDiscs programSelectors K b0 ops).clock < (numAt d 232 8 : Int) →
        sumAt (escrowsIn K found a i) 72 = numAt d (472 + 160 * i + 8) 8 ∧
        sumAt (escrowsIn K found a i) 120 = numAt d (472 + 160 * i + 56) 8) := by
  obtain ⟨w, R, hc, N, rep⟩ := C81_sound P programDiscs programSelectors K G hk
  have T : Tracks programDiscs K _ w := ⟨R, hc, N, rep⟩
  have hp : w.presales a = some (presaleAt K d) := T.at hd h8
  obtain ⟨t1, t2, t3, t4⟩ := C03_totals R hp
  have reg : ∀ f : Registry → Nat, ((presaleAt K d).registries.map f).sum =
      ((List.range 5).map fun i => f (registryAt d (472 + 160 * i))).sum := by
    intro f
    show (((List.range 5).map fun i => registryAt d (472 + 160 * i)).map f).sum = _
    rw [List.map_map]
    rfl
  refine ⟨t1.trans (reg _), t2.trans (reg _), t3.trans (reg _), fun i hi => ?_⟩
  have hr : (presaleAt K d).registries[i]? = some (registryAt d (472 + 160 * i)) := by
    show ((List.range 5).map fun i => registryAt d (472 + 160 * i))[i]? = _
    rw [List.getElem?_map, List.getElem?_range hi]
    rfl
  obtain ⟨u1, u2, u3, u4⟩ := t4 i _ hr
  have e1 : (escrowsIn K found a i).length = Spec.escrowSum w.escrows a i (fun _ => 1) := by
    rw [← T.escrowSum F a i (fun _ => 1) (fun _ => 1) (fun _ => rfl)]
    simp
  have e2 : sumAt (escrowsIn K found a i) 72 = Spec.escrowSum w.escrows a i Escrow.totalDeposit :=
    T.escrowSum F a i _ _ fun _ => rfl
  have e3 : sumAt (escrowsIn K found a i) 120 = Spec.escrowSum w.escrows a i Escrow.totalDepositFee :=
    T.escrowSum F a i _ _ fun _ => rfl
  rw [e1, e2, e3]
  refine ⟨u1, u2, u3, fun hclk => ?_⟩
  rw [rep.clock] at hclk
  obtain ⟨v1, v2⟩ := u4 (fun h => absurd hclk (not_lt.2 h))
  exact ⟨v1.symm, v2.symm⟩

/-- **C112** (it can be done). There is such a list of escrow accounts, and any two are the same up to order. -/
theorem C112_found (P : ProgIds) (K : Keys) {b0 : Bank} (G : BankGenesis b0) {ops : List BOp} (hk : ∀ o ∈ ops, o.Keyed) :
    ∃ found, AllEscrows (brun P programDiscs programSelectors K b0 ops) found ∧
      ∀ other, AllEscrows (brun P programDiscs programSelectors K b0 ops) other → other.Perm found := by
  obtain ⟨w, R, hc, N, rep⟩ := C81_sound P programDiscs programSelectors K G hk
  have T : Tracks programDiscs K _ w := ⟨R, hc, N, rep⟩
  exact ⟨_, T.allEscrows, fun _ F => T.perm F⟩

/-- **C112** (limits). The data of any escrow name a sale with its registry: the deposit at byte 72 is zero or within the
registry's limits, and not above the cap at byte 104. A sale that is not pro-rata records no more than its maximum. -/
theorem C112_limits (P : ProgIds) (K : Keys) {b0 : Bank} (G : BankGenesis b0) {ops : List BOp} (hk : ∀ o ∈ ops, o.Keyed)
    {k : Addr} {e : Bytes} (he : (brun P programDiscs programSelectors K b0 ops).data k = some e)
    (h8 : e.take 8 = accountBytes .escrow) :
    ∃ d i, (brun P programDiscs programSelectors K b0 ops).data (keyAt K e 8) = some d ∧
      d.take 8 = accountBytes .presale ∧ i = numAt e 89 1 ∧ i < numAt d 355 1 ∧ i < 5 ∧
      (numAt e 72 8 = 0 ∨ (numAt d (472 + 160 * i + 40) 8 ≤ numAt e 72 8 ∧
        numAt e 72 8 ≤ numAt d (472 + 160 * i + 48) 8)) ∧
      numAt e 72 8 ≤ numAt e 104 8 ∧ numAt e 104 8 ≤ numAt d (472 + 160 * i + 48) 8 ∧
      (numAt d 201 1 ≠ 1 → numAt d 248 8 ≤ numAt d 208 8) := by
  obtain ⟨w, R, hc, N, rep⟩ := C81_sound P programDiscs programSelectors K G hk
  have T : Tracks programDiscs K _ w := ⟨R, hc, N, rep⟩
  have hs : w.escrows.get? k = some (escrowAt K e) := T.at he h8
  obtain ⟨p, r, h1, h2, h3, h4, h5, h6⟩ := C05_buyer_limits R hs
  have hst : Stored w .presale (keyAt K e 8) p := h1
  obtain ⟨d, g1, g2, g3⟩ := T.data hst
  have g3' : presaleAt K d = p := g3
  subst g3'
  have h2' : ((List.range 5).map fun i => registryAt d (472 + 160 * i))[numAt e 89 1]? = some r := h2
  have hi : numAt e 89 1 < 5 := by
    have := (List.getElem?_eq_some_iff.1 h2').1
    simpa using this
  rw [List.getElem?_map, List.getElem?_range hi] at h2'
  cases h2'
  exact ⟨d, _, g1, g2, rfl, h3, hi, h4, h5, h6, fun hm => (C04_hard_cap R h1 hm).1⟩

/-- **C112** (vaults). The data of any sale name its two vaults, token accounts of its two mints that obey the program
alone. Until the sale ends the quote vault holds the recorded deposits and fees and the base vault the supply; if the
sale failed, the quote vault holds the deposits and fees of the escrows not marked as refunded. -/
theorem C112_vaults (P : ProgIds) (K : Keys) {b0 : Bank} (G : BankGenesis b0) {ops : List BOp} (hk : ∀ o ∈ ops, o.Keyed)
    {found : List (Addr × Bytes)} (F : AllEscrows (brun P programDiscs programSelectors K b0 ops) found) {a : Addr}
    {d : Bytes} (hd : (brun P programDiscs programSelectors K b0 ops).data a = some d)
    (h8 : d.take 8 = accountBytes .presale) :
    ∃ base quote,
      (brun P programDiscs programSelectors K b0 ops).tk.toks (keyAt K d 104) = some base ∧
      (brun P programDiscs programSelectors K b0 ops).tk.toks (keyAt K d 136) = some quote ∧
      base.mint = keyAt K d 72 ∧ quote.mint = keyAt K d 40 ∧
      base.owner = .presaleAuthority ∧ quote.owner = .presaleAuthority ∧
      ((brun P programDiscs programSelectors K b0 ops).clock < (numAt d 232 8 : Int) →
        numAt d 248 8 + numAt d 336 8 ≤ quote.amount ∧ numAt d 240 8 ≤ base.amount) ∧
      ((numAt d 232 8 : Int) ≤ (brun P programDiscs programSelectors K b0 ops).clock → numAt d 248 8 < numAt d 216 8 →
        ((found.filter fun x => decide (keyAt K x.2 8 = a ∧ numAt x.2 88 1 ≠ 1)).map fun x =>
          numAt x.2 72 8 + numAt x.2 120 8).sum ≤ quote.amount) := by
  obtain ⟨w, R, hc, N, rep⟩ := C81_sound P programDiscs programSelectors K G hk
  have T : Tracks programDiscs K _ w := ⟨R, hc, N, rep⟩
  have hp : w.presales a = some (presaleAt K d) := T.at hd h8
  obtain ⟨q, q1, q2, q3, -, q5, q6, -⟩ := C01_quote_solvent R hp
  obtain ⟨c, c1, c2, c3, -, c5, -⟩ := C02_base_solvent R hp
  have S := (R.winv.core.sale a _ hp).pinv.static
  have s1 : keyAt K d 104 = .baseVault a := S.baseVault
  have s2 : keyAt K d 136 = .quoteVault a := S.quoteVault
  rw [s1, s2, rep.tk, rep.clock]
  refine ⟨c, q, c1, q1, c2, q2, c3, q3, fun h => ?_, fun h1 h2 => ?_⟩
  · have hno : ¬ Over (presaleAt K d) w.clock := fun ho => absurd h (not_lt.2 ho)
    exact ⟨q5 hno, c5 hno⟩
  · refine le_trans (le_of_eq ?_) (q6 ⟨h1, h2⟩)
    rw [sum_filter_map]
    unfold saleSum
    rw [← T.sum F (fun e => if e.presale = a then (if e.isRemainingQuoteWithdrawn = 1 then 0
      else e.totalDeposit + e.totalDepositFee) else 0)]
    congr 1
    refine List.map_congr_left fun x _ => ?_
    show (if keyAt K x.2 8 = a ∧ numAt x.2 88 1 ≠ 1 then numAt x.2 72 8 + numAt x.2 120 8 else 0) =
      if keyAt K x.2 8 = a then (if numAt x.2 88 1 = 1 then 0 else numAt x.2 72 8 + numAt x.2 120 8) else 0
    by_cases u : keyAt K x.2 8 = a <;> by_cases v : numAt x.2 88 1 = 1 <;> simp [u, v]

/-! ## Example -/

/-- Alice's 900 and Bob's 600 in a pro-rata sale, read from the data of their escrows and of the sale: the hypotheses are
met from an empty deployment. -/
example : ∃ (K : Keys) (b : Bank) (l : List BOp) (found : List (Addr × Bytes)) (d : Bytes), BankGenesis b ∧
    (∀ o ∈ l, o.Keyed) ∧
    AllEscrows (brun exampleIds programDiscs programSelectors K b l) found ∧ found.length = 2 ∧
    (brun exampleIds programDiscs programSelectors K b l).data Ex.sale = some d ∧ d.take 8 = accountBytes .presale ∧
    0 < numAt d 248 8 ∧ sumAt (escrowsIn K found Ex.sale 0) 72 = numAt d 248 8 := by
  let names := (namesOf exampleIds Ex.prorataOps).dedup
  have hn : names.length ≤ 256 ^ 32 := by decide +kernel
  let b : Bank := { env := Ex.genesis.env, clock := Ex.genesis.clock, data := fun _ => none, tk := Ex.genesis.tk }
  have G := Ex.genesis_ok
  have hno : ∀ k a v, ¬ Stored Ex.genesis k a v := by
    intro k a v h
    cases k <;> cases h
  let K := Keys.ofList names (List.nodup_dedup _)
  have rep : Represents programDiscs K b Ex.genesis :=
    ⟨rfl, rfl, rfl, fun k a v h => (hno k a v h).elim, fun _ _ => rfl⟩
  have BG : BankGenesis b := ⟨fun _ => rfl, G.vaults, G.amounts, G.mints, by decide⟩
  have T0 : Tracks programDiscs K b Ex.genesis := ⟨⟨_, [], G, rfl⟩, by decide, fun k a v h => (hno k a v h).elim, rep⟩
  obtain ⟨l, h1, T⟩ := T0.follows exampleIds programSelectors Ex.prorataOps (by decide +kernel)
    fun x hx => Keys.ofList_known _ hn (List.mem_dedup.2 (mem_namesOf hx))
  obtain ⟨p, hp, hprop⟩ := Ex.has_some (w := Ex.prorataOpen)
    (f := fun p => decide (0 < p.totalDeposit ∧ p.totalDeposit = Spec.escrowSum Ex.prorataOpen.escrows Ex.sale 0 Escrow.totalDeposit))
    (by decide +kernel)
  obtain ⟨g1, g2⟩ := of_decide_eq_true hprop
  have hs : Stored Ex.prorataOpen .presale Ex.sale p := hp
  obtain ⟨d, d1, d2, d3⟩ := T.data hs
  have d3' : (presaleAt K d).totalDeposit = p.totalDeposit := congrArg Presale.totalDeposit d3
  have e2 : sumAt (escrowsIn K (escrowData (brun exampleIds programDiscs programSelectors K b l) Ex.prorataOpen) Ex.sale 0) 72 =
      Spec.escrowSum Ex.prorataOpen.escrows Ex.sale 0 Escrow.totalDeposit := T.escrowSum T.allEscrows Ex.sale 0 _ _ fun _ => rfl
  refine ⟨K, b, l, _, d, BG, h1, T.allEscrows, ?_, d1, d2, ?_, ?_⟩
  · unfold escrowData
    rw [List.length_map]
    decide +kernel
  · exact lt_of_lt_of_eq g1 d3'.symm
  · exact e2.trans (g2.symm.trans d3'.symm)

end Verif
