import Verif.Lemmas.Origin
import Verif.Lemmas.Tally
import Verif.Props.Ledger
import Verif.Props.Admin
import Verif.Props.Machine
import Verif.Props.Undo
import Verif.Lemmas.Fits
import Verif.SpecLists
/-!
# A corrected list does not replace the old one
-/

namespace Verif
open Spec

/-- **C105.** As long as a sale is open, no list published for it can be taken back: whatever happens, its root stays. -/
theorem C105_root_stays {w : World} (R : Reachable w) {config : Addr} {c : MerkleRootConfig} {p p' : Presale}
    (hc : w.merkleRoots config = some c) (hp : w.presales c.presale = some p) (hs : (p.presaleStartTime : Int) ≤ w.clock)
    (ops : List Op) (hp' : (run w ops).presales c.presale = some p') (hn : ¬ Over p' (run w ops).clock) :
    (run w ops).merkleRoots config = some c := by
  induction ops generalizing w p with
  | nil => exact hc
  | cons op ops ih =>
    change (run (apply w op) ops).merkleRoots config = some c
    rcases apply_cases w op with h | ⟨rc, h⟩
    · rw [h]
      have hr : run w (op :: ops) = run w ops := by
        change run (apply w op) ops = _; rw [h]
      rw [hr] at hp' hn
      exact ih R hc hp hs hp' hn
    · have R1 := R.step h
      obtain ⟨p1, hp1, L1⟩ := (step_effect R.winv h).later R.winv hp
      obtain ⟨p2, hp2, L2⟩ := run_later R1.winv ops hp1
      have e2 : p2 = p' := Option.some.inj (hp2.symm.trans hp')
      subst e2
      have hs1 : (p1.presaleStartTime : Int) ≤ (apply w op).clock := by
        have h1 := congrArg Presale.presaleStartTime L1.terms
        have h2 := L1.clock
        change p1.presaleStartTime = p.presaleStartTime at h1
        omega
      refine ih R1 ?_ hp1 hs1 hp' hn
      rcases C49_root_kept h hc with h1 | ⟨-, tx, x, q, -, -, hq, -, hq'⟩
      · exact h1
      · rw [hp] at hq; cases hq
        exact absurd ⟨hs, not_le.1 fun ho => hn (L2.over (L1.over ho))⟩ hq'

/-- **C105.** Anybody may use anybody's row of any of the lists: the escrow is opened with the cap written there, and the
owner has no say in it. -/
theorem C105_anybody {w : World} (R : Reachable w) {a config owner payer : Addr} {proof : List Bytes} {i cap : Nat}
    {p : Presale} {tx : Tx} (L : Listed w a config owner proof i cap) (hp : w.presales a = some p)
    (ho : Ongoing p w.clock) (hf : w.escrows.get? (.escrow a owner i) = none) (hn : p.totalEscrow + 1 < 2 ^ 64)
    (hs : tx.signed payer = true) :
    ∃ w' rc e, step w (.ix tx (.createEscrowMerkle ⟨a, owner, config, payer, proof, i, cap⟩)) = .ok (w', rc) ∧
      w'.escrows.get? (.escrow a owner i) = some e ∧ e.owner = owner ∧ e.depositMaxCap = cap := by
  obtain ⟨c, hc, hca, hroot⟩ := L.root
  obtain ⟨q, r, hq, hm, hi, hr, hcap⟩ := L.allowed
  rw [hp] at hq; cases hq
  obtain ⟨rc, h⟩ := (C72_does_iff R tx (.createEscrowMerkle ⟨a, owner, config, payer, proof, i, cap⟩) _).2
    ⟨p, r, c, hs, hm, ⟨hc, hca⟩, L.fits, hroot, hcap, hp, ⟨hr, hi⟩, ho, hf, hn, rfl⟩
  exact ⟨_, rc, _, h, (AMap.get?_set _ _ _ _).trans (if_pos rfl), rfl, rfl⟩

theorem pinned_step {w w' : World} (R : Reachable w) {op : Op} {rc : Receipt} (h : step w op = .ok (w', rc)) {k : Addr}
    {e : Escrow} {p : Presale} (hk : w.escrows.get? k = some e) (hp : w.presales e.presale = some p) (hpin : Pinned p e) :
    (∃ e' p', w'.escrows.get? k = some e' ∧ SameIdentity e e' ∧ w'.presales e.presale = some p' ∧ Pinned p' e') ∨
    (w'.escrows.get? k = none ∧ ∃ p', w'.presales e.presale = some p' ∧ Over p' w'.clock) := by
  have W := R.winv
  have E := step_effect W h
  obtain ⟨p', hp', L⟩ := E.later W hp
  have hw : WithdrawAllowed p' ↔ WithdrawAllowed p := by
    have e1 : p'.presaleMode = p.presaleMode := (congrArg Presale.presaleMode L.terms :)
    have e3 : p'.raw1 = p.raw1 := (congrArg Presale.raw1 L.terms :)
    unfold WithdrawAllowed; rw [e1, e3]
  have hkeep : ∀ e', e.totalDepositFee ≤ e'.totalDepositFee → (¬ WithdrawAllowed p → e.totalDeposit ≤ e'.totalDeposit) →
      Pinned p' e' := by
    intro e' h1 h2
    rcases hpin with h3 | ⟨h3, h4⟩
    · exact .inl (by omega)
    · exact .inr ⟨by have := h2 h4; omega, by rwa [hw]⟩
  rcases E.escrow W hk with h1 | ⟨tx, i, q, hop, hq, hclk, h1⟩
  · exact .inl ⟨e, p', h1, .refl e, hp', hkeep e le_rfl fun _ => le_rfl⟩
  · rw [hp] at hq; cases hq
    have hid := h1.identity
    generalize hget : w'.escrows.get? k = o at h1 hid
    cases h1 with
    | deposit _ _ _ F =>
      refine .inl ⟨_, p', rfl, hid _ rfl, hp', hkeep _ ?_ fun _ => ?_⟩ <;> rw [F.escrow] <;> exact Nat.le_add_right _ _
    | withdraw a1 a2 _ F =>
      subst hop
      obtain ⟨q, f, r, n, k', D⟩ := (C72_does_iff R _ _ _).1 ⟨rc, h⟩
      have hq := D.presale
      rw [a1, hp] at hq; cases hq
      refine .inl ⟨_, p', rfl, hid _ rfl, hp', hkeep _ ?_ fun hno => absurd D.allowed hno⟩
      rw [F.escrow]
      exact le_rfl
    | refreshed => exact .inl ⟨_, p', rfl, hid _ rfl, hp', hkeep _ le_rfl fun _ => le_rfl⟩
    | claimed => exact .inl ⟨_, p', rfl, hid _ rfl, hp', hkeep _ le_rfl fun _ => le_rfl⟩
    | refunded => exact .inl ⟨_, p', rfl, hid _ rfl, hp', hkeep _ le_rfl fun _ => le_rfl⟩
    | closed a1 a2 =>
      subst hop
      obtain ⟨q, f, r, D⟩ := (C72_does_iff R _ _ _).1 ⟨rc, h⟩
      have hq := D.presale
      rw [a1, hp] at hq; cases hq
      have hf := D.escrow.1
      rw [a2, hk] at hf; cases hf
      refine .inr ⟨rfl, p', hp', L.over ?_⟩
      by_contra hno
      have := D.empty hno
      rcases hpin with h1 | h1 <;> omega

/-- **C105.** Whoever's escrow holds a fee, or a deposit in a sale without withdrawals, is tied to the cap of the list
it was opened with: the escrow cannot be closed and opened anew while the sale is open, so that under its address never
more than that cap is deposited, whatever anybody does. -/
theorem C105_tied {w : World} (R : Reachable w) {k : Addr} {e : Escrow} {p : Presale} (hk : w.escrows.get? k = some e)
    (hp : w.presales e.presale = some p) (hpin : Pinned p e) (ops : List Op) :
    (∀ p', (run w ops).presales e.presale = some p' → ¬ Over p' (run w ops).clock →
      ∃ e', (run w ops).escrows.get? k = some e') ∧
    ∀ e', (run w ops).escrows.get? k = some e' → e'.owner = e.owner ∧ e'.depositMaxCap = e.depositMaxCap ∧
      e'.createdAt = e.createdAt ∧ e'.totalDeposit ≤ e.depositMaxCap := by
  have key : (∃ e' p', (run w ops).escrows.get? k = some e' ∧ SameIdentity e e' ∧
        (run w ops).presales e.presale = some p' ∧ Pinned p' e') ∨
      ((run w ops).escrows.get? k = none ∧ ∃ p', (run w ops).presales e.presale = some p' ∧ Over p' (run w ops).clock) := by
    induction ops using List.reverseRecOn with
    | nil => exact .inl ⟨e, p, hk, .refl e, hp, hpin⟩
    | append_singleton ops op ih =>
      rw [run_snoc]
      have R1 := R.run ops
      rcases apply_cases (run w ops) op with h | ⟨rc, h⟩
      · rw [h]; exact ih
      · rcases ih with ⟨e1, p1, a1, a2, a3, a4⟩ | ⟨a1, p1, a2, a3⟩
        · rw [← a2.presale] at a3
          rcases pinned_step R1 h a1 a3 a4 with ⟨e2, p2, b1, b2, b3, b4⟩ | ⟨b1, p2, b2, b3⟩
          · rw [a2.presale] at b3
            exact .inl ⟨e2, p2, b1, a2.trans b2, b3, b4⟩
          · rw [a2.presale] at b2
            exact .inr ⟨b1, p2, b2, b3⟩
        · obtain ⟨p2, hp2, L⟩ := (step_effect R1.winv h).later R1.winv a2
          refine .inr ⟨?_, p2, hp2, L.over a3⟩
          cases hn : (apply (run w ops) op).escrows.get? k with
          | none => rfl
          | some e2 =>
            exfalso
            obtain ⟨_, _, q, _, hq, hq', _, hkey, _⟩ := step_opening R1.winv h a1 hn
            have hkey0 : k = _ := (R.winv.core.esc _ (AMap.get?_mem hk)).1
            rw [hkey0] at hkey
            injection hkey with h1
            rw [← h1, a2] at hq; cases hq
            unfold Over at a3; unfold Ongoing at hq'; omega
  constructor
  · intro p' hp' hn
    rcases key with ⟨e', _, h1, _⟩ | ⟨_, p1, h1, h2⟩
    · exact ⟨e', h1⟩
    · rw [hp'] at h1; cases h1; exact absurd h2 hn
  · intro e' he'
    rcases key with ⟨e1, _, h1, h2, _⟩ | ⟨h1, _⟩
    · rw [he'] at h1; cases h1
      obtain ⟨_, _, _, _, _, _, h3, _⟩ := C05_buyer_limits (R.run ops) he'
      exact ⟨h2.owner, h2.cap, h2.created, by rw [← h2.cap]; exact h3⟩
    · rw [he'] at h1; cases h1

/-- **C105.** As long as nothing has been paid in, the owner can change to the cap of another list: they close the escrow
and open it anew, in one transaction if they like, and nothing else in the ledger changes. -/
theorem C105_change {w : World} (R : Reachable w) {k config payer receiver : Addr} {proof : List Bytes} {cap : Nat}
    {e : Escrow} {p : Presale} {tx : Tx} (hk : w.escrows.get? k = some e) (hp : w.presales e.presale = some p)
    (ho : Ongoing p w.clock) (h0 : e.totalDeposit = 0 ∧ e.totalDepositFee = 0)
    (L : Listed w e.presale config e.owner proof e.registryIndex cap) (hr : receiver ≠ k)
    (hs : tx.signed e.owner = true ∧ tx.signed payer = true) :
    ∃ w1 w2 rc1 rc2, step w (.ix tx (.closeEscrow ⟨e.presale, k, e.owner, receiver⟩)) = .ok (w1, rc1) ∧
      step w1 (.ix tx (.createEscrowMerkle ⟨e.presale, e.owner, config, payer, proof, e.registryIndex, cap⟩)) =
        .ok (w2, rc2) ∧
      w2 = { w with
        escrows := (w.escrows.erase k).set k
          { presale := e.presale, owner := e.owner, totalDeposit := 0, totalClaimedToken := 0,
            isRemainingQuoteWithdrawn := 0, registryIndex := e.registryIndex, pendingClaimToken := 0, depositMaxCap := cap,
            createdAt := w.clock.toNat, totalDepositFee := 0, lastRefreshedAt := w.clock.toNat } } := by
  have hno : ¬ Over p w.clock := fun h => by unfold Over at h; unfold Ongoing at ho; omega
  have hkey : k = .escrow e.presale e.owner e.registryIndex := (R.winv.core.esc _ (AMap.get?_mem hk)).1
  obtain ⟨c, hc, hca, hroot⟩ := L.root
  obtain ⟨q, r, hq, hm, hi, hreg, hcap⟩ := L.allowed
  rw [hp] at hq; cases hq
  have S := R.winv.core.sale _ _ hp
  have g1 : 1 ≤ r.totalEscrow := by
    rw [(S.pinv.book.reg _ _ hreg).count]
    exact le_esum (f := fun _ => 1) (AMap.get?_mem hk) rfl rfl
  have g2 : 1 ≤ p.totalEscrow := by
    rw [S.pinv.book.totEsc]
    exact Nat.le_trans g1 (le_lsum (g := Registry.totalEscrow) hreg)
  have g3 := R.fits.count _ _ hp
  rw [u64Bound_eq] at g3
  have hlt : e.registryIndex < p.registries.length := (List.getElem?_eq_some_iff.1 hreg).1
  obtain ⟨rc1, h1⟩ := (C72_does_iff R tx (.closeEscrow ⟨e.presale, k, e.owner, receiver⟩) _).2
    ⟨p, e, r, hp, ⟨hk, rfl, rfl⟩, hreg, hr, hs.1, fun _ => h0, fun h => absurd h hno, fun h => absurd h.1 hno, rfl⟩
  have R1 := R.step h1
  obtain ⟨rc2, h2⟩ := (C72_does_iff R1 tx
    (.createEscrowMerkle ⟨e.presale, e.owner, config, payer, proof, e.registryIndex, cap⟩) _).2
    ⟨{ p with registries := p.registries.set e.registryIndex { r with totalEscrow := r.totalEscrow - 1 },
              totalEscrow := p.totalEscrow - 1 }, { r with totalEscrow := r.totalEscrow - 1 }, c, hs.2, hm, ⟨hc, hca⟩,
      L.fits, hroot, hcap, upd_self _ _ _, ⟨List.getElem?_set_self hlt, hi⟩, ho,
      by rw [← hkey]; exact (AMap.get?_erase R.winv.core.nodup _ _).trans (if_pos rfl),
      by change p.totalEscrow - 1 + 1 < 2 ^ 64; omega, rfl⟩
  refine ⟨_, _, rc1, rc2, h1, h2, ?_⟩
  have a1 : p.totalEscrow - 1 + 1 = p.totalEscrow := by omega
  have a2 : r.totalEscrow - 1 + 1 = r.totalEscrow := by omega
  simp only [a1, a2, List.set_set, upd_upd, ← hkey]
  rw [List.set_self' hreg, upd_same hp]

/-! ## Examples -/

namespace Ex

/-- The corrected list: 900 for Alice instead of 300. -/
def newRows : List TreeNode :=
  [{ escrowOwner := genesis.env.keyBytes alice, registryIndex := 0, depositCap := 900, proof := none },
   { escrowOwner := genesis.env.keyBytes bob, registryIndex := 0, depositCap := 400, proof := none }]

def newTree : ConfigMerkleTree :=
  match ConfigMerkleTree.new genesis.env.hash newRows 4 with
  | .ok t => t
  | .error _ => theTree

def newProof : List Bytes := ((newTree.treeNodes[0]?).bind TreeNode.proof).getD []

def openFor (payer : Addr) (version : Nat) (proof : List Bytes) (cap : Nat) : Op :=
  .ix (tx [payer]) (.createEscrowMerkle
    { presale := sale, owner := alice, config := .merkleRoot sale version, payer := payer, proof := proof,
      registryIndex := 0, depositCap := cap })

/-- Both lists are published and the sale is open. -/
def twoLists : World :=
  run genesis [init 1 1 0 wideReg, publish creator, .ix (tx [creator]) (.createMerkle ⟨sale, creator, newTree.merkleRoot, 4⟩),
    .tick 10]

/-- Bob opens Alice's escrow with her old row and pays in one unit for her. -/
def tieAlice : List Op :=
  [openFor bob 3 (proofOf 0) 300,
   .ix (tx [bob]) (.deposit { depositAcc alice bobQuote 1 with payer := bob })]

theorem hasEsc_some {w : World} {k : Addr} {f : Escrow → Bool} (h : hasEsc w k f = true) :
    ∃ e, w.escrows.get? k = some e ∧ f e = true := by
  unfold hasEsc at h
  split at h
  · next e he => exact ⟨e, he, h⟩
  · cases h

end Ex

/-- **C105.** So a correction of a list can be undone by anybody: there is an open sale in which the new list gives somebody
a cap of 900, which they could use up at once, but after a stranger has opened their escrow with the 300 of
the old list and paid in a single unit, never more than 300 is deposited there, whatever is done. -/
theorem C105_tie : ∃ (w : World) (who k : Addr) (own others : List Op), Reachable w ∧
    (∃ e, (run w own).escrows.get? k = some e ∧ e.owner = who ∧ e.totalDeposit = 900) ∧
    (∀ tx i, Op.ix tx i ∈ others → tx.signed who = false) ∧
    (∃ e, (run w others).escrows.get? k = some e ∧ e.owner = who ∧ e.totalDeposit = 1) ∧
    ∀ ops e, (run (run w others) ops).escrows.get? k = some e → e.totalDeposit ≤ 300 := by
  have R : Reachable Ex.twoLists := ⟨_, _, Ex.genesis_ok, rfl⟩
  have h : Ex.hasEsc (run Ex.twoLists Ex.tieAlice) (Ex.escrowOf Ex.alice) (fun e => decide (e.owner = Ex.alice ∧
    e.totalDeposit = 1 ∧ 0 < e.totalDepositFee ∧ e.depositMaxCap = 300)) = true := by decide +kernel
  have h' : Ex.hasEsc (run Ex.twoLists [Ex.openFor Ex.alice 4 Ex.newProof 900, Ex.deposit Ex.alice Ex.aliceQuote 1000])
    (Ex.escrowOf Ex.alice) (fun e => decide (e.owner = Ex.alice ∧ e.totalDeposit = 900)) = true := by decide +kernel
  obtain ⟨e, he, hf⟩ := Ex.hasEsc_some h
  obtain ⟨e', he', hf'⟩ := Ex.hasEsc_some h'
  have hf := of_decide_eq_true hf
  have hf' := of_decide_eq_true hf'
  refine ⟨Ex.twoLists, Ex.alice, Ex.escrowOf Ex.alice, _, Ex.tieAlice, R, ⟨e', he', hf'⟩, ?_, ⟨e, he, hf.1, hf.2.1⟩, ?_⟩
  · intro tx i hi
    simp only [Ex.tieAlice, Ex.openFor, List.mem_cons, Op.ix.injEq, List.not_mem_nil, or_false] at hi
    rcases hi with ⟨rfl, _⟩ | ⟨rfl, _⟩ <;> decide +kernel
  · intro ops e1 h1
    have R1 := R.run Ex.tieAlice
    obtain ⟨p, hp⟩ := (R1.winv.core.esc _ (AMap.get?_mem he)).2
    have := ((C105_tied R1 he hp (.inl hf.2.2.1) ops).2 e1 h1).2.2.2
    omega

namespace Ex

/-- While the sale is open the creator cannot take back the old list, after its end they can; and as long as nobody
has paid in, Alice herself can change to the new cap. -/
example : works twoLists (closeRoot creator) = false ∧ works (run twoLists [.tick 2000]) (closeRoot creator) = true ∧
    works (run genesis [init 1 1 0 wideReg, publish creator]) (closeRoot creator) = false ∧
    hasEsc (run twoLists [openFor bob 3 (proofOf 0) 300]) (escrowOf alice) (fun e => e.depositMaxCap == 300) = true ∧
    hasEsc (run twoLists [openFor bob 3 (proofOf 0) 300, .ix (tx [alice]) (.closeEscrow ⟨sale, escrowOf alice, alice, alice⟩),
      openFor alice 4 newProof 900]) (escrowOf alice) (fun e => e.depositMaxCap == 900) = true ∧
    works (run twoLists tieAlice) (.ix (tx [alice]) (.closeEscrow ⟨sale, escrowOf alice, alice, alice⟩)) = false := by
  decide +kernel

end Ex

end Verif
