import Verif.Props.Closing
import Verif.Props.Creator
import Verif.Lemmas.Conserve
import Verif.SpecWindup
import Verif.Examples
/-!
# Winding up a sale
-/

namespace Verif
open Spec

/-! ## Token accounts that stand ready -/

theorem amountOf_some {k : Tokens} {x : Addr} {t : TokAcct} (h : k.toks x = some t) : amountOf k x = t.amount := by
  unfold amountOf; rw [h]

theorem amountOf_congr {k k' : Tokens} {x : Addr} (h : k'.toks x = k.toks x) : amountOf k' x = amountOf k x := by
  unfold amountOf; rw [h]

/-- The two vaults together lose what is paid out of either. -/
theorem vaults_paid {k k' : Tokens} {mint vault dst a : Addr} {n : Nat} (h : Transferred k k' mint vault dst n)
    (hv : vault = .baseVault a ∨ vault = .quoteVault a) (hd : dst.isVault = false) :
    amountOf k' vault + n = amountOf k vault ∧
    amountOf k' (.baseVault a) + amountOf k' (.quoteVault a) + n =
      amountOf k (.baseVault a) + amountOf k (.quoteVault a) ∧
    (∀ b, b.isVault = true → b ≠ vault → amountOf k' b = amountOf k b) := by
  obtain ⟨_, hoth, m, s, d, s', d', hm, hs, hdd, hs', hd', _, _, _, _, _, _, hne⟩ := h
  have hvv : vault.isVault = true := by rcases hv with rfl | rfl <;> rfl
  have hvd : vault ≠ dst := fun e => by rw [e, hd] at hvv; cases hvv
  obtain ⟨h1, _⟩ := hne hvd
  have hO : ∀ b, b.isVault = true → b ≠ vault → amountOf k' b = amountOf k b := fun b hb hbv =>
    amountOf_congr (hoth b hbv (fun e => by rw [e, hd] at hb; cases hb))
  have hV : amountOf k' vault + n = amountOf k vault := by
    rw [amountOf_some hs, amountOf_some hs']; exact h1
  refine ⟨hV, ?_, hO⟩
  rcases hv with rfl | rfl
  · have := hO (.quoteVault a) rfl (by intro e; cases e); omega
  · have := hO (.baseVault a) rfl (by intro e; cases e); omega

theorem HasAccount.paid {k k' : Tokens} {mint vault dst a mint' o : Addr} {n : Nat}
    (h : Transferred k k' mint vault dst n) (hv : vault = .baseVault a ∨ vault = .quoteVault a)
    (hd : dst.isVault = false) (H : HasAccount k a mint' o) : HasAccount k' a mint' o := by
  obtain ⟨_, hsum, _⟩ := vaults_paid h hv hd
  obtain ⟨hmints, hoth, m, s, d, s', d', hm, hs, hdd, hs', hd', _, _, _, hsame, _, _, hne⟩ := h
  have hvv : vault.isVault = true := by rcases hv with rfl | rfl <;> rfl
  have hvd : vault ≠ dst := fun e => by rw [e, hd] at hvv; cases hvv
  obtain ⟨_, h2⟩ := hne hvd
  obtain ⟨m', t, g1, g2, g3, g4, g5, g6⟩ := H
  by_cases he : Addr.ata o mint' m'.program = dst
  · rw [he] at g2
    rw [hdd] at g2; cases g2
    refine ⟨m', d', by rw [hmints]; exact g1, by rw [he]; exact hd', by rw [hsame.2.1]; exact g3,
      by rw [hsame.1]; exact g4, by rw [hsame.2.2]; exact g5, by omega⟩
  · refine ⟨m', t, by rw [hmints]; exact g1, ?_, g3, g4, g5, by omega⟩
    rw [hoth _ (fun e => by rw [← e] at hvv; cases hvv) he]
    exact g2

theorem Spec.Ready.paid {k k' : Tokens} {mint vault dst a : Addr} {p p' : Presale} {who : Addr → Prop} {n : Nat}
    (h : Transferred k k' mint vault dst n) (hv : vault = .baseVault a ∨ vault = .quoteVault a)
    (hd : dst.isVault = false) (hb : p'.baseMint = p.baseMint) (hq : p'.quoteMint = p.quoteMint)
    (T : Ready k a p who) : Ready k' a p' who := by
  obtain ⟨hV, _, hO⟩ := vaults_paid h hv hd
  have hvv : vault.isVault = true := by rcases hv with rfl | rfl <;> rfl
  have hfrz : ∀ b, b.isVault = true → (∀ v, k.toks b = some v → v.frozen = false) →
      ∀ v, k'.toks b = some v → v.frozen = false := by
    intro b hb hk v hv'
    obtain ⟨_, hoth, m, s, d, s', d', _, hs, _, hs', _, _, _, hsame, _⟩ := h
    by_cases he : b = vault
    · rw [he, hs'] at hv'; cases hv'
      rw [hsame.2.2]; exact hk s (by rw [he]; exact hs)
    · exact hk v (by rw [← hoth b he (fun e => by rw [e, hd] at hb; cases hb)]; exact hv')
  refine ⟨hfrz _ rfl T.base, hfrz _ rfl T.quote, ?_, T.signs,
    fun o ho => by rw [hb]; exact HasAccount.paid h hv hd (T.toBase o ho),
    fun o ho => by rw [hq]; exact HasAccount.paid h hv hd (T.toQuote o ho)⟩
  intro m hm
  rw [hb, h.1] at hm
  have h1 := T.supply m hm
  by_cases he : Addr.baseVault a = vault
  · rw [← he] at hV; omega
  · rw [hO _ rfl he]; exact h1

theorem Spec.Ready.burnt {k k' : Tokens} {mint a : Addr} {p p' : Presale} {who : Addr → Prop} {n : Nat}
    (h : Burnt k k' mint (.baseVault a) n) (hb : p'.baseMint = p.baseMint) (hq : p'.quoteMint = p.quoteMint)
    (hm : mint = p.baseMint) (T : Ready k a p who) :
    Ready k' a p' who ∧ amountOf k' (.baseVault a) + n = amountOf k (.baseVault a) ∧
      amountOf k' (.quoteVault a) = amountOf k (.quoteVault a) := by
  obtain ⟨hoth, hmo, m, s, m', s', g1, g2, g3, g4, _, g6, g7, g8, g9, _⟩ := h
  have h1 : amountOf k' (.baseVault a) + n = amountOf k (.baseVault a) := by
    rw [amountOf_some g2, amountOf_some g4]; exact g7
  have h2 : amountOf k' (.quoteVault a) = amountOf k (.quoteVault a) :=
    amountOf_congr (hoth _ (by intro e; cases e))
  have hacc : ∀ mint' o, HasAccount k a mint' o → HasAccount k' a mint' o := by
    rintro mint' o ⟨x, d, f1, f2, f3, f4, f5, f6⟩
    by_cases he : mint' = mint
    · subst he
      rw [g1] at f1; cases f1
      exact ⟨m', d, g3, by rw [g9, hoth _ (by intro e; cases e)]; exact f2, f3, f4, f5, by omega⟩
    · exact ⟨x, d, by rw [hmo _ he]; exact f1, by rw [hoth _ (by intro e; cases e)]; exact f2, f3, f4, f5,
        by omega⟩
  refine ⟨⟨?_, ?_, ?_, T.signs, fun o ho => by rw [hb]; exact hacc _ _ (T.toBase o ho),
    fun o ho => by rw [hq]; exact hacc _ _ (T.toQuote o ho)⟩, h1, h2⟩
  · intro v hv
    rw [g4] at hv; cases hv
    rw [g6.2.2]; exact T.base s g2
  · intro v hv
    exact T.quote v (by rw [← hoth _ (by intro e; cases e)]; exact hv)
  · intro x hx
    rw [hb, ← hm, g3] at hx; cases hx
    have := T.supply m (by rw [← hm]; exact g1)
    omega

/-- Token program of a mint. -/
def progOf (k : Tokens) (mint : Addr) : TokenProgram :=
  match k.mints mint with
  | some m => m.program
  | none => .splToken

/-- Hook accounts to pass for a mint. -/
def slicesFor (kind : AccountsType) (k : Tokens) (mint : Addr) : List RemSlice :=
  match k.mints mint with
  | some m => if m.hookProgram = none then [] else [⟨kind, 1⟩]
  | none => []

theorem HasAccount.payable {k : Tokens} {a mint o vault : Addr} {tx : Tx} {kind : AccountsType} {rem : List Addr}
    {n : Nat} (H : HasAccount k a mint o) (htx : tx.accept = true) (hrem : 1 ≤ rem.length)
    (hv : vault = .baseVault a ∨ vault = .quoteVault a) (hthaw : ∀ v, k.toks vault = some v → v.frozen = false)
    (hn : n ≤ amountOf k vault) :
    Payable k tx kind mint vault (.ata o mint (progOf k mint)) (progOf k mint) rem (slicesFor kind k mint) n := by
  obtain ⟨m, d, h1, h2, h3, h4, h5, h6⟩ := H
  have hp : progOf k mint = m.program := by unfold progOf; rw [h1]
  have hs : slicesFor kind k mint = if m.hookProgram = none then [] else [⟨kind, 1⟩] := by
    unfold slicesFor; rw [h1]
  refine ⟨htx, fun x hx => ?_, fun x hx => ?_, hthaw, d, by rw [hp]; exact h2, h4, h5, fun x _ => ?_⟩
  · rw [h1] at hx; cases hx; exact hp.symm
  · rw [h1] at hx; cases hx
    unfold HooksFit
    rw [hs]
    by_cases hh : m.hookProgram = none
    · rw [if_pos hh, if_pos hh]
    · rw [if_neg hh, if_neg hh]; exact ⟨1, rfl, by omega, by omega, hrem⟩
  · rcases hv with rfl | rfl <;> omega

/-! ## Stages of winding up -/

theorem Spec.Performed.run {who : Addr → Prop} {w w' : World} {l : List (Tx × Ix)} (h : Performed who w l w') :
    w' = Verif.run w (l.map (fun x => .ix x.1 x.2)) := by
  induction h with
  | nil w => rfl
  | cons hs _ _ ih =>
    rw [ih]
    show _ = Verif.run (apply _ _) _
    rw [apply_ok hs]

theorem Spec.Performed.append {who : Addr → Prop} {w w1 w2 : World} {l l' : List (Tx × Ix)} (h : Performed who w l w1)
    (h' : Performed who w1 l' w2) : Performed who w (l ++ l') w2 := by
  induction h with
  | nil w => exact h'
  | cons hs hsig _ ih => exact .cons hs hsig (ih h')

theorem Spec.Performed.one {who : Addr → Prop} {w w1 : World} {tx : Tx} {i : Ix} {rc : Receipt}
    (h : step w (.ix tx i) = .ok (w1, rc)) (hs : ∀ s ∈ tx.signers, who s) : Performed who w [(tx, i)] w1 :=
  .cons h hs (.nil _)

/-- From `w` to `w'` some escrows of presale `a` were served, successfully, by people in `who`; all the vaults
lost is what was recorded as claimed and refunded. -/
structure Stage (who : Addr → Prop) (a : Addr) (w w' : World) (p p' : Presale) : Prop where
  performed : ∃ l, Performed who w l w'
  presale : w.presales a = some p
  presale' : w'.presales a = some p'
  clock : w'.clock = w.clock
  mints : w'.tk.mints = w.tk.mints
  ready : Ready w.tk a p who → Ready w'.tk a p' who
  base : amountOf w'.tk (.baseVault a) + p'.totalClaimedToken =
    amountOf w.tk (.baseVault a) + p.totalClaimedToken
  quote : amountOf w'.tk (.quoteVault a) + p'.totalRefundedQuoteToken =
    amountOf w.tk (.quoteVault a) + p.totalRefundedQuoteToken
  flags : p'.hasCreatorWithdrawn = p.hasCreatorWithdrawn ∧ p'.depositFeeCollected = p.depositFeeCollected ∧
    p'.isUnsoldTokenActionPerformed = p.isUnsoldTokenActionPerformed
  claims : p'.totalDeposit < p'.presaleMinimumCap → p'.totalClaimedToken = p.totalClaimedToken
  sum : p'.totalDeposit = p.totalDeposit ∧ p'.presaleMinimumCap = p.presaleMinimumCap

theorem Stage.refl {who : Addr → Prop} {a : Addr} {w : World} {p : Presale} (hp : w.presales a = some p) :
    Stage who a w w p p :=
  ⟨⟨[], .nil _⟩, hp, hp, rfl, rfl, id, rfl, rfl, ⟨rfl, rfl, rfl⟩, fun _ => rfl, rfl, rfl⟩

theorem Stage.trans {who : Addr → Prop} {a : Addr} {w w1 w2 : World} {p p1 p2 : Presale}
    (h : Stage who a w w1 p p1) (h' : Stage who a w1 w2 p1 p2) : Stage who a w w2 p p2 := by
  obtain ⟨l, hl⟩ := h.performed
  obtain ⟨l', hl'⟩ := h'.performed
  obtain ⟨f1, f2, f3⟩ := h.flags
  obtain ⟨g1, g2, g3⟩ := h'.flags
  obtain ⟨s1, s2⟩ := h.sum
  obtain ⟨t1, t2⟩ := h'.sum
  refine ⟨⟨_, hl.append hl'⟩, h.presale, h'.presale', h'.clock.trans h.clock, h'.mints.trans h.mints,
    fun T => h'.ready (h.ready T), h'.base.trans h.base, h'.quote.trans h.quote,
    ⟨g1.trans f1, g2.trans f2, g3.trans f3⟩, fun hf => ?_, t1.trans s1, t2.trans s2⟩
  rw [h'.claims hf]
  exact h.claims (by omega)

theorem Stage.reachable {who : Addr → Prop} {a : Addr} {w w' : World} {p p' : Presale}
    (h : Stage who a w w' p p') (R : Reachable w) : Reachable w' := by
  obtain ⟨l, hl⟩ := h.performed
  rw [hl.run]
  exact R.run _

theorem stage_claim {who : Addr → Prop} {w w' : World} (R : Reachable w) {tx : Tx} {x : ClaimAcc} {rc : Receipt}
    (h : step w (.ix tx (.claim x)) = .ok (w', rc)) (hs : ∀ s ∈ tx.signers, who s)
    (hd : x.ownerBaseToken.isVault = false) {p : Presale} (hp : w.presales x.presale = some p) :
    ∃ p', Stage who x.presale w w' p p' ∧ p'.totalEscrow = p.totalEscrow := by
  obtain ⟨q, p', e, e', r, r', n, D⟩ := C13_claim R h
  have h0 := D.presale
  rw [hp] at h0; cases h0
  have S := R.winv.core.sale _ _ hp
  have hpn := D.presaleNow
  have c1 : p'.totalClaimedToken = p.totalClaimedToken + n := by rw [hpn]
  have c2 : p'.totalRefundedQuoteToken = p.totalRefundedQuoteToken := by rw [hpn]
  have hbm : p'.baseMint = p.baseMint := by rw [hpn]
  have hqm : p'.quoteMint = p.quoteMint := by rw [hpn]
  have hV := S.pinv.static.baseVault
  have hfail : ¬ p'.totalDeposit < p'.presaleMinimumCap := by
    rw [hpn]; have := D.completed.2; simp only []; omega
  refine ⟨p', ⟨⟨_, .one h hs⟩, hp, D.presale', D.clock, ?_, ?_, ?_, ?_, ?_, fun h => absurd h hfail, ?_⟩, by rw [hpn]⟩
  · rcases D.moved with ⟨_, h1⟩ | ⟨_, h1⟩
    · rw [h1]
    · exact h1.1
  · rcases D.moved with ⟨_, h1⟩ | ⟨_, h1⟩
    · rw [h1]; exact fun T => ⟨T.base, T.quote, by rw [hbm]; exact T.supply, T.signs, by rw [hbm]; exact T.toBase,
        by rw [hqm]; exact T.toQuote⟩
    · exact fun T => T.paid h1 (.inl hV) hd hbm hqm
  · rcases D.moved with ⟨h0, h1⟩ | ⟨_, h1⟩
    · rw [h1, c1, h0]; rfl
    · rw [hV] at h1
      have := (vaults_paid h1 (.inl rfl) hd).1
      omega
  · rcases D.moved with ⟨h0, h1⟩ | ⟨_, h1⟩
    · rw [h1, c2]
    · rw [hV] at h1
      rw [(vaults_paid h1 (.inl rfl) hd).2.2 _ rfl (by intro e; cases e), c2]
  · rw [hpn]; exact ⟨rfl, rfl, rfl⟩
  · rw [hpn]; exact ⟨rfl, rfl⟩

theorem stage_refund {who : Addr → Prop} {w w' : World} (R : Reachable w) {tx : Tx} {x : RefundAcc} {rc : Receipt}
    (h : step w (.ix tx (.refund x)) = .ok (w', rc)) (hs : ∀ s ∈ tx.signers, who s)
    (hd : x.ownerQuoteToken.isVault = false) {p : Presale} (hp : w.presales x.presale = some p) :
    ∃ p', Stage who x.presale w w' p p' ∧ p'.totalEscrow = p.totalEscrow := by
  obtain ⟨q, p', e, e', r, r', n, D⟩ := refund_spec R h
  have h0 := D.presale
  rw [hp] at h0; cases h0
  have S := R.winv.core.sale _ _ hp
  have hpn := D.presaleNow
  have c1 : p'.totalRefundedQuoteToken = p.totalRefundedQuoteToken + n := by rw [hpn]
  have c2 : p'.totalClaimedToken = p.totalClaimedToken := by rw [hpn]
  have hbm : p'.baseMint = p.baseMint := by rw [hpn]
  have hqm : p'.quoteMint = p.quoteMint := by rw [hpn]
  have hV := S.pinv.static.quoteVault
  refine ⟨p', ⟨⟨_, .one h hs⟩, hp, D.presale', D.clock, ?_, ?_, ?_, ?_, ?_, fun _ => c2, ?_⟩, by rw [hpn]⟩
  · rcases D.moved with ⟨_, h1⟩ | ⟨_, h1⟩
    · rw [h1]
    · exact h1.1
  · rcases D.moved with ⟨_, h1⟩ | ⟨_, h1⟩
    · rw [h1]; exact fun T => ⟨T.base, T.quote, by rw [hbm]; exact T.supply, T.signs, by rw [hbm]; exact T.toBase,
        by rw [hqm]; exact T.toQuote⟩
    · exact fun T => T.paid h1 (.inr hV) hd hbm hqm
  · rcases D.moved with ⟨h0, h1⟩ | ⟨_, h1⟩
    · rw [h1, c2]
    · rw [hV] at h1
      rw [(vaults_paid h1 (.inr rfl) hd).2.2 _ rfl (by intro e; cases e), c2]
  · rcases D.moved with ⟨h0, h1⟩ | ⟨_, h1⟩
    · rw [h1, c1, h0]; rfl
    · rw [hV] at h1
      have := (vaults_paid h1 (.inr rfl) hd).1
      omega
  · rw [hpn]; exact ⟨rfl, rfl, rfl⟩
  · rw [hpn]; exact ⟨rfl, rfl⟩

theorem stage_close {who : Addr → Prop} {w w' : World} (R : Reachable w) {tx : Tx} {x : CloseEscrowAcc}
    {rc : Receipt} (h : step w (.ix tx (.closeEscrow x)) = .ok (w', rc)) (hs : ∀ s ∈ tx.signers, who s)
    {p : Presale} (hp : w.presales x.presale = some p) :
    ∃ p', Stage who x.presale w w' p p' ∧ p'.totalEscrow = p.totalEscrow - 1 := by
  obtain ⟨q, e, r, hq, hk, hr, _, _, _, _, _, hp', _, htk, hclk⟩ := C29_close R h
  rw [hp] at hq; cases hq
  refine ⟨_, ⟨⟨_, .one h hs⟩, hp, hp', hclk, by rw [htk], ?_, by rw [htk], by rw [htk], ⟨rfl, rfl, rfl⟩,
    fun _ => rfl, rfl, rfl⟩, rfl⟩
  rw [htk]
  exact fun T => ⟨T.base, T.quote, T.supply, T.signs, T.toBase, T.toQuote⟩


/-- The transaction of one person. -/
def soloTx (o : Addr) : Tx := { signers := [o], accept := true }

theorem soloTx_signed {o : Addr} (h : o.isKey = true) : (soloTx o).signed o = true := by
  unfold Tx.signed soloTx
  simp [h]

theorem soloTx_who {who : Addr → Prop} {o : Addr} (h : who o) : ∀ s ∈ (soloTx o).signers, who s := by
  intro s hs
  simp only [soloTx, List.mem_singleton] at hs
  rw [hs]; exact h

theorem exists_other (k : Addr) : ∃ r : Addr, r ≠ k := by
  by_cases h : k = .key 0
  · exact ⟨.key 1, by rw [h]; intro e; cases e⟩
  · exact ⟨.key 0, fun e => h e.symm⟩

theorem escrow_counted {w : World} (R : Reachable w) {a k : Addr} {p : Presale} {e : Escrow}
    (hp : w.presales a = some p) (hk : w.escrows.get? k = some e) (ha : e.presale = a) : 1 ≤ p.totalEscrow := by
  have S := R.winv.core.sale _ _ hp
  obtain ⟨r, hr, _⟩ := S.pinv.escBook hk ha
  have h1 : 1 ≤ r.totalEscrow := by
    rw [(S.pinv.book.reg _ _ hr).count]
    exact le_esum (f := fun _ => 1) (AMap.get?_mem hk) ha rfl
  rw [S.pinv.book.totEsc]
  exact Nat.le_trans h1 (le_lsum (g := Registry.totalEscrow) hr)

/-- Completed sale after vesting: one escrow is served and closed. -/
theorem wind_completed {who : Addr → Prop} {w : World} (R : Reachable w) {a k : Addr} {p : Presale} {e : Escrow}
    (hp : w.presales a = some p) (hc : Completed p w.clock)
    (hvest : ((p.vestingStartTime + p.vestDuration : Nat) : Int) ≤ w.clock) (T : Ready w.tk a p who)
    (hk : w.escrows.get? k = some e) (ha : e.presale = a) (hwho : who e.owner) :
    ∃ w' p', Stage who a w w' p p' ∧ p'.totalEscrow < p.totalEscrow := by
  have S := R.winv.core.sale _ _ hp
  obtain ⟨r, hr, E⟩ := S.pinv.escBook hk ha
  have hcount := escrow_counted R hp hk ha
  have hsig := soloTx_signed (T.signs _ hwho)
  obtain ⟨rent, hrent⟩ := exists_other k
  let x : ClaimAcc := ⟨a, p.baseTokenVault, p.baseMint, k, .ata e.owner p.baseMint (progOf w.tk p.baseMint), e.owner,
    progOf w.tk p.baseMint, [.key 0], slicesFor .transferHookBase w.tk p.baseMint⟩
  let y : RefundAcc := ⟨a, p.quoteTokenVault, p.quoteMint, k, .ata e.owner p.quoteMint (progOf w.tk p.quoteMint),
    e.owner, progOf w.tk p.quoteMint, [.key 0], slicesFor .transferHookQuote w.tk p.quoteMint⟩
  have hpay : Payable w.tk (soloTx e.owner) .transferHookBase p.baseMint p.baseTokenVault x.ownerBaseToken
      x.tokenProgram x.remaining x.slices (entitlement p r e - e.totalClaimedToken) := by
    rw [S.pinv.static.baseVault]
    refine HasAccount.payable (T.toBase _ hwho) rfl (Nat.le_refl _) (.inl rfl) T.base ?_
    obtain ⟨b, hb, _, _, _, _, _, hsolv⟩ := C02_base_solvent R hp
    have h1 := hsolv hc
    have h2 := le_saleSum (claimDue p) hk ha
    rw [claimDue_eq hr] at h2
    rw [amountOf_some hb]; omega
  have hpay' : e.isRemainingQuoteWithdrawn = 0 → p.presaleMode = 1 → ∀ w1 rc,
      step w (.ix (soloTx e.owner) (.claim x)) = .ok (w1, rc) →
      Payable w1.tk (soloTx e.owner) .transferHookQuote p.quoteMint p.quoteTokenVault y.ownerQuoteToken
        y.tokenProgram y.remaining y.slices (owedRefund p r e) := by
    intro hflag _ w1 rc h1
    obtain ⟨p1, G, _⟩ := stage_claim (who := who) (p := p) R h1 (soloTx_who hwho) rfl hp
    have R1 := R.step h1
    obtain ⟨q, q', f, e1, r0, r1, n, D⟩ := C13_claim R h1
    have h0 := D.presale
    rw [show x.presale = a from rfl, hp] at h0; cases h0
    have h0 := D.presale'
    rw [show x.presale = a from rfl, G.presale'] at h0; cases h0
    have h0 := D.escrow
    rw [show x.escrow = k from rfl, hk] at h0; cases h0
    have h0 := D.registry
    rw [hr] at h0; cases h0
    have T1 := G.ready T
    have hqm : p1.quoteMint = p.quoteMint := by rw [D.presaleNow]
    have hprog : progOf w1.tk p.quoteMint = progOf w.tk p.quoteMint := by unfold progOf; rw [G.mints]
    have hsl : slicesFor .transferHookQuote w1.tk p.quoteMint = slicesFor .transferHookQuote w.tk p.quoteMint := by
      unfold slicesFor; rw [G.mints]
    have hA := T1.toQuote _ hwho
    rw [hqm] at hA
    rw [S.pinv.static.quoteVault]
    show Payable w1.tk (soloTx e.owner) .transferHookQuote p.quoteMint (.quoteVault a)
      (.ata e.owner p.quoteMint (progOf w.tk p.quoteMint)) (progOf w.tk p.quoteMint) [.key 0]
      (slicesFor .transferHookQuote w.tk p.quoteMint) (owedRefund p r e)
    rw [← hprog, ← hsl]
    refine HasAccount.payable hA rfl (Nat.le_refl _) (.inr rfl) T1.quote ?_
    have hb1 : books p1 = books p := by
      rw [D.presaleNow, D.registryNow]; exact books_claimed D.registry
    have hrb : registryBooks r1 = registryBooks r := by rw [D.registryNow]; rfl
    have howe : owedRefund p1 r1 e1 = owedRefund p r e :=
      owedRefund_congr hb1 hrb (by rw [D.escrowNow]) (by rw [D.escrowNow])
    have hid : e1.registryIndex = e.registryIndex := by rw [D.escrowNow]
    have hc1 : Completed p1 w1.clock := by
      have t1 : p1.presaleEndTime = p.presaleEndTime := by rw [D.presaleNow]
      have t2 : p1.presaleMinimumCap = p.presaleMinimumCap := by rw [D.presaleNow]
      have t3 : p1.totalDeposit = p.totalDeposit := by rw [D.presaleNow]
      unfold Completed Over
      rw [D.clock, t1, t2, t3]; exact hc
    obtain ⟨q, hq, _, _, _, _, _, hsolv⟩ := C01_quote_solvent (a := a) R1 G.presale'
    have h2 := hsolv hc1
    have h3 := le_saleSum (refundDue p1) D.escrow' (a := a) (by rw [D.escrowNow]; exact ha)
    rw [refundDue_eq (r := r1) (by rw [hid]; exact D.registry')] at h3
    unfold outstanding at h3
    rw [if_neg (by rw [D.escrowNow]; show e.isRemainingQuoteWithdrawn ≠ 1; omega), howe] at h3
    rw [amountOf_some hq]; omega
  obtain ⟨w1, rc1, w2, h1, h2, w3, rc3, h3, _⟩ := C30_windup_completed (x := x) (y := y) R hp hk ha rfl hc hvest hr
    ⟨hsig, hsig, hsig⟩ rfl rfl hpay ⟨rfl, rfl, rfl, rfl, rfl⟩ hpay' rent hrent
  obtain ⟨p1, G1, n1⟩ := stage_claim (who := who) (p := p) R h1 (soloTx_who hwho) rfl hp
  have R1 := R.step h1
  have G2 : ∃ p2, Stage who a w1 w2 p1 p2 ∧ p2.totalEscrow = p1.totalEscrow := by
    rcases h2 with ⟨_, _, rc2, h2⟩ | ⟨_, rfl⟩
    · exact stage_refund R1 h2 (soloTx_who hwho) rfl G1.presale'
    · exact ⟨p1, .refl G1.presale', rfl⟩
  obtain ⟨p2, G2, n2⟩ := G2
  obtain ⟨p3, G3, n3⟩ := stage_close (who := who) (G2.reachable R1) h3 (soloTx_who hwho) G2.presale'
  exact ⟨w3, p3, (G1.trans G2).trans G3, by omega⟩

/-- Failed sale: one escrow is served and closed. -/
theorem wind_failed {who : Addr → Prop} {w : World} (R : Reachable w) {a k : Addr} {p : Presale} {e : Escrow}
    (hp : w.presales a = some p) (hf : Failed p w.clock) (T : Ready w.tk a p who)
    (hk : w.escrows.get? k = some e) (ha : e.presale = a) (hwho : who e.owner) :
    ∃ w' p', Stage who a w w' p p' ∧ p'.totalEscrow < p.totalEscrow := by
  have S := R.winv.core.sale _ _ hp
  obtain ⟨r, hr, E⟩ := S.pinv.escBook hk ha
  have hcount := escrow_counted R hp hk ha
  have hsig := soloTx_signed (T.signs _ hwho)
  obtain ⟨rent, hrent⟩ := exists_other k
  by_cases hflag : e.isRemainingQuoteWithdrawn = 1
  · obtain ⟨w1, rc1, h1⟩ := C30_close_succeeds (tx := soloTx e.owner) (x := ⟨a, k, e.owner, rent⟩) R hp hk ha rfl
      hsig hrent hr ⟨fun h => absurd hf.1 h, fun _ => .inl hflag, fun h => by have := h.2; have := hf.2; omega⟩
    obtain ⟨p1, G, n1⟩ := stage_close (who := who) R h1 (soloTx_who hwho) hp
    exact ⟨w1, p1, G, by omega⟩
  · have hfl : e.isRemainingQuoteWithdrawn = 0 := by have := E.flag; omega
    let y : RefundAcc := ⟨a, p.quoteTokenVault, p.quoteMint, k, .ata e.owner p.quoteMint (progOf w.tk p.quoteMint),
      e.owner, progOf w.tk p.quoteMint, [.key 0], slicesFor .transferHookQuote w.tk p.quoteMint⟩
    have hpay : Payable w.tk (soloTx e.owner) .transferHookQuote p.quoteMint p.quoteTokenVault y.ownerQuoteToken
        y.tokenProgram y.remaining y.slices (e.totalDeposit + e.totalDepositFee) := by
      rw [S.pinv.static.quoteVault]
      refine HasAccount.payable (T.toQuote _ hwho) rfl (Nat.le_refl _) (.inr rfl) T.quote ?_
      obtain ⟨q, hq, _, _, _, _, hsolv, _⟩ := C01_quote_solvent R hp
      have h1 := hsolv hf
      have h2 := le_saleSum (fun e => if e.isRemainingQuoteWithdrawn = 1 then 0
          else e.totalDeposit + e.totalDepositFee) hk ha
      simp only [if_neg hflag] at h2
      rw [amountOf_some hq]; omega
    obtain ⟨w1, rc1, w2, rc2, h1, h2, _⟩ := C30_windup_failed (x := y) R hp hk ha rfl ⟨hsig, hsig⟩ hf hfl hr rfl rfl
      hpay rent hrent
    obtain ⟨p1, G1, n1⟩ := stage_refund (who := who) (p := p) R h1 (soloTx_who hwho) rfl hp
    obtain ⟨p2, G2, n2⟩ := stage_close (who := who) (R.step h1) h2 (soloTx_who hwho) G1.presale'
    exact ⟨w2, p2, G1.trans G2, by omega⟩


/-! ## All escrows -/

theorem Spec.Vested.over {p : Presale} {now : Int} (h : Vested p now) : Over p now := by
  rcases h with h | h
  · exact h.1
  · exact h.1.1

theorem Spec.Vested.books {p p' : Presale} {now : Int} (h : Vested p now) (hb : Verif.books p' = Verif.books p) :
    Vested p' now := by
  have h1 : p'.presaleEndTime = p.presaleEndTime :=
    show (Verif.books p').presaleEndTime = (Verif.books p).presaleEndTime by rw [hb]
  have h2 : p'.presaleMinimumCap = p.presaleMinimumCap :=
    show (Verif.books p').presaleMinimumCap = (Verif.books p).presaleMinimumCap by rw [hb]
  have h3 : p'.totalDeposit = p.totalDeposit :=
    show (Verif.books p').totalDeposit = (Verif.books p).totalDeposit by rw [hb]
  have h4 : p'.vestingStartTime = p.vestingStartTime :=
    show (Verif.books p').vestingStartTime = (Verif.books p).vestingStartTime by rw [hb]
  have h5 : p'.vestDuration = p.vestDuration :=
    show (Verif.books p').vestDuration = (Verif.books p).vestDuration by rw [hb]
  unfold Vested Failed Completed Over at *
  rw [h1, h2, h3, h4, h5]; exact h

theorem Stage.books {who : Addr → Prop} {a : Addr} {w w' : World} {p p' : Presale} (h : Stage who a w w' p p')
    (R : Reachable w) (ho : Over p w.clock) : Verif.books p' = Verif.books p := by
  obtain ⟨l, hl⟩ := h.performed
  obtain ⟨q, hq, L⟩ := run_later R.winv (l.map (fun x => .ix x.1 x.2)) h.presale
  rw [← hl.run, h.presale'] at hq; cases hq
  exact L.frozen ho

theorem Stage.escrow {who : Addr → Prop} {a : Addr} {w w' : World} {p p' : Presale} (h : Stage who a w w' p p')
    (R : Reachable w) (ho : Over p w.clock) {k : Addr} {e' : Escrow} (hk : w'.escrows.get? k = some e')
    (ha : e'.presale = a) : ∃ e, w.escrows.get? k = some e ∧ e.presale = a ∧ e.owner = e'.owner := by
  obtain ⟨l, hl⟩ := h.performed
  rw [hl.run] at hk
  obtain ⟨e, he, A⟩ := run_after R.winv _ h.presale ho hk ha
  exact ⟨e, he, A.identity.presale.symm.trans ha, A.identity.owner.symm⟩

/-- One escrow after the other, all escrows of an ended and vested sale are served and closed. -/
theorem wind_escrows {who : Addr → Prop} {a : Addr} (n : Nat) : ∀ {w : World} {p : Presale}, Reachable w →
    w.presales a = some p → Vested p w.clock → Ready w.tk a p who →
    (∀ k e, w.escrows.get? k = some e → e.presale = a → who e.owner) → p.totalEscrow ≤ n →
    ∃ w' p', Stage who a w w' p p' ∧ ∀ k e, w'.escrows.get? k = some e → e.presale ≠ a := by
  induction n with
  | zero =>
    intro w p R hp _ _ _ hn
    refine ⟨w, p, .refl hp, fun k e hk ha => ?_⟩
    have := escrow_counted R hp hk ha
    omega
  | succ n ih =>
    intro w p R hp hv T hwho hn
    by_cases hex : ∃ k e, w.escrows.get? k = some e ∧ e.presale = a
    · obtain ⟨k, e, hk, ha⟩ := hex
      have h1 : ∃ w1 p1, Stage who a w w1 p p1 ∧ p1.totalEscrow < p.totalEscrow := by
        rcases hv with hf | ⟨hc, hvest⟩
        · exact wind_failed R hp hf T hk ha (hwho k e hk ha)
        · exact wind_completed R hp hc hvest T hk ha (hwho k e hk ha)
      obtain ⟨w1, p1, G, hlt⟩ := h1
      have hb := G.books R hv.over
      obtain ⟨w2, p2, G2, hnone⟩ := ih (G.reachable R) G.presale' (by rw [G.clock]; exact hv.books hb) (G.ready T)
        (fun k e hk ha => by
          obtain ⟨e0, h0, h1, h2⟩ := G.escrow R hv.over hk ha
          rw [← h2]; exact hwho k e0 h0 h1) (by omega)
      exact ⟨w2, p2, G.trans G2, hnone⟩
    · refine ⟨w, p, .refl hp, fun k e hk ha => hex ⟨k, e, hk, ha⟩⟩

/-! ## The creator -/

/-- From `w` to `w'` the creator did something, or nothing; the vaults lost `nb` and `nq`. -/
structure Turn (who : Addr → Prop) (a : Addr) (w w' : World) (p' : Presale) (nb nq : Nat) : Prop where
  performed : ∃ l, Performed who w l w'
  presale' : w'.presales a = some p'
  clock : w'.clock = w.clock
  escrows : w'.escrows = w.escrows
  ready : Ready w'.tk a p' who
  base : amountOf w'.tk (.baseVault a) + nb = amountOf w.tk (.baseVault a)
  quote : amountOf w'.tk (.quoteVault a) + nq = amountOf w.tk (.quoteVault a)

theorem Turn.reachable {who : Addr → Prop} {a : Addr} {w w' : World} {p' : Presale} {nb nq : Nat}
    (h : Turn who a w w' p' nb nq) (R : Reachable w) : Reachable w' := by
  obtain ⟨l, hl⟩ := h.performed
  rw [hl.run]
  exact R.run _

theorem Turn.none {who : Addr → Prop} {a : Addr} {w : World} {p : Presale} (hp : w.presales a = some p)
    (T : Ready w.tk a p who) : Turn who a w w p 0 0 :=
  ⟨⟨[], .nil _⟩, hp, rfl, rfl, T, rfl, rfl⟩

theorem paid_amounts {k k' : Tokens} {mint dst a : Addr} {n : Nat} (hd : dst.isVault = false) :
    (Transferred k k' mint (.baseVault a) dst n →
      amountOf k' (.baseVault a) + n = amountOf k (.baseVault a) ∧
        amountOf k' (.quoteVault a) = amountOf k (.quoteVault a)) ∧
    (Transferred k k' mint (.quoteVault a) dst n →
      amountOf k' (.baseVault a) = amountOf k (.baseVault a) ∧
        amountOf k' (.quoteVault a) + n = amountOf k (.quoteVault a)) := by
  refine ⟨fun h => ?_, fun h => ?_⟩
  · obtain ⟨h1, _, h3⟩ := vaults_paid h (.inl rfl) hd
    exact ⟨h1, h3 _ rfl (by intro e; cases e)⟩
  · obtain ⟨h1, _, h3⟩ := vaults_paid h (.inr rfl) hd
    exact ⟨h3 _ rfl (by intro e; cases e), h1⟩

/-- The creator of an ended sale withdraws, unless that has happened. -/
theorem turn_withdraw {who : Addr → Prop} {w : World} (R : Reachable w) {a : Addr} {p : Presale}
    (hp : w.presales a = some p) (ho : Over p w.clock) (T : Ready w.tk a p who) (hwho : who p.owner) :
    ∃ w', Turn who a w w' { p with hasCreatorWithdrawn := 1 }
      (if p.presaleMinimumCap ≤ p.totalDeposit then 0 else if p.hasCreatorWithdrawn = 1 then 0 else p.presaleSupply)
      (if p.presaleMinimumCap ≤ p.totalDeposit then if p.hasCreatorWithdrawn = 1 then 0 else raise p else 0) ∧
      w'.tk.mints = w.tk.mints := by
  have S := R.winv.core.sale _ _ hp
  have hfl := S.pinv.flags.w
  by_cases h1 : p.hasCreatorWithdrawn = 1
  · refine ⟨w, ?_⟩
    simp only [if_pos h1, ite_self]
    have : { p with hasCreatorWithdrawn := 1 } = p := by rw [← h1]
    rw [this]; exact ⟨.none hp T, trivial⟩
  · rw [if_neg h1, if_neg h1]
    have h0 : p.hasCreatorWithdrawn = 0 := by omega
    have hsig := soloTx_signed (T.signs _ hwho)
    by_cases hmin : p.presaleMinimumCap ≤ p.totalDeposit
    · rw [if_pos hmin, if_pos hmin]
      have hc : Completed p w.clock := ⟨ho, hmin⟩
      obtain ⟨q, hq, _, _, _, _, _, hsolv⟩ := C01_quote_solvent R hp
      have hbal := hsolv hc
      unfold creatorDue at hbal
      rw [if_neg h1] at hbal
      let x : CreatorWithdrawAcc := ⟨a, .ata p.owner p.quoteMint (progOf w.tk p.quoteMint), p.owner,
        progOf w.tk p.quoteMint, .quoteVault a :: p.quoteMint :: [.key 0],
        slicesFor .transferHookQuote w.tk p.quoteMint⟩
      have hW : WithdrawalOf a p w.clock p.quoteMint (.quoteVault a) (raise p) .transferHookQuote :=
        .inl ⟨hc, rfl, rfl, rfl, rfl⟩
      obtain ⟨w', rc, h⟩ := C28_withdraw_succeeds (x := x) (rest := [.key 0]) R hp rfl hsig h0 hW rfl
        (HasAccount.payable (T.toQuote _ hwho) rfl (Nat.le_refl _) (.inr rfl) T.quote
          (by rw [amountOf_some hq]; omega))
      obtain ⟨p0, mint, vault, amount, kind, g1, _, _, _, gW, gT, gw⟩ := C22_withdraw R h
      rw [show x.presale = a from rfl, hp] at g1; cases g1
      rcases gW with ⟨_, rfl, rfl, rfl, _⟩ | ⟨gf, _⟩
      · have hp' : w'.presales a = some { p with hasCreatorWithdrawn := 1 } := by rw [gw]; exact upd_self _ _ _
        obtain ⟨b1, b2⟩ := (paid_amounts (a := a) rfl).2 gT
        exact ⟨w', ⟨⟨_, .one h (soloTx_who hwho)⟩, hp', by rw [gw], by rw [gw],
          T.paid (p := p) gT (.inr rfl) rfl rfl rfl, b1, b2⟩, gT.1⟩
      · have := gf.2; omega
    · rw [if_neg hmin, if_neg hmin]
      have hf : Failed p w.clock := ⟨ho, by omega⟩
      obtain ⟨b, hb, _, _, _, _, hsolv, _⟩ := C02_base_solvent R hp
      have hbal := hsolv hf h0
      let x : CreatorWithdrawAcc := ⟨a, .ata p.owner p.baseMint (progOf w.tk p.baseMint), p.owner,
        progOf w.tk p.baseMint, .baseVault a :: p.baseMint :: [.key 0],
        slicesFor .transferHookBase w.tk p.baseMint⟩
      have hW : WithdrawalOf a p w.clock p.baseMint (.baseVault a) p.presaleSupply .transferHookBase :=
        .inr ⟨hf, rfl, rfl, rfl, rfl⟩
      obtain ⟨w', rc, h⟩ := C28_withdraw_succeeds (x := x) (rest := [.key 0]) R hp rfl hsig h0 hW rfl
        (HasAccount.payable (T.toBase _ hwho) rfl (Nat.le_refl _) (.inl rfl) T.base
          (by rw [amountOf_some hb]; omega))
      obtain ⟨p0, mint, vault, amount, kind, g1, _, _, _, gW, gT, gw⟩ := C22_withdraw R h
      rw [show x.presale = a from rfl, hp] at g1; cases g1
      rcases gW with ⟨gc, _⟩ | ⟨_, rfl, rfl, rfl, _⟩
      · have := gc.2; omega
      · have hp' : w'.presales a = some { p with hasCreatorWithdrawn := 1 } := by rw [gw]; exact upd_self _ _ _
        obtain ⟨b1, b2⟩ := (paid_amounts (a := a) rfl).1 gT
        exact ⟨w', ⟨⟨_, .one h (soloTx_who hwho)⟩, hp', by rw [gw], by rw [gw],
          T.paid (p := p) gT (.inl rfl) rfl rfl rfl, b1, b2⟩, gT.1⟩

/-- The creator of a completed sale collects the fees, unless that has happened. -/
theorem turn_collect {who : Addr → Prop} {w : World} (R : Reachable w) {a : Addr} {p : Presale}
    (hp : w.presales a = some p) (hc : Completed p w.clock) (T : Ready w.tk a p who) (hwho : who p.owner) :
    ∃ w', Turn who a w w' { p with depositFeeCollected := 1 } 0
      (if p.depositFeeCollected = 1 then 0 else collectableFee p) ∧ w'.tk.mints = w.tk.mints := by
  have S := R.winv.core.sale _ _ hp
  have hfl := S.pinv.flags.f
  by_cases h1 : p.depositFeeCollected = 1
  · refine ⟨w, ?_⟩
    rw [if_pos h1]
    have : { p with depositFeeCollected := 1 } = p := by rw [← h1]
    rw [this]; exact ⟨.none hp T, rfl⟩
  · rw [if_neg h1]
    have h0 : p.depositFeeCollected = 0 := by omega
    have hsig := soloTx_signed (T.signs _ hwho)
    obtain ⟨q, hq, _, _, _, _, _, hsolv⟩ := C01_quote_solvent R hp
    have hbal := hsolv hc
    unfold creatorDue at hbal
    rw [if_neg h1] at hbal
    let x : CollectFeeAcc := ⟨a, .quoteVault a, p.quoteMint, .ata p.owner p.quoteMint (progOf w.tk p.quoteMint),
      p.owner, progOf w.tk p.quoteMint, [.key 0], slicesFor .transferHookQuote w.tk p.quoteMint⟩
    obtain ⟨w', rc, h⟩ := C28_collect_succeeds (x := x) R hp rfl hsig h0 hc rfl rfl
      (HasAccount.payable (T.toQuote _ hwho) rfl (Nat.le_refl _) (.inr rfl) T.quote
        (by rw [amountOf_some hq]; omega))
    obtain ⟨p0, g1, _, _, _, _, gT, gw⟩ := C23_collect R h
    rw [show x.presale = a from rfl, hp] at g1; cases g1
    have hp' : w'.presales a = some { p with depositFeeCollected := 1 } := by rw [gw]; exact upd_self _ _ _
    rcases gT with ⟨gz, gt⟩ | ⟨_, gT⟩
    · refine ⟨w', ⟨⟨_, .one h (soloTx_who hwho)⟩, hp', by rw [gw], by rw [gw], ?_, by rw [gt]; rfl,
        by rw [gt, gz]; rfl⟩, by rw [gt]⟩
      rw [gt]; exact ⟨T.base, T.quote, T.supply, T.signs, T.toBase, T.toQuote⟩
    · obtain ⟨b1, b2⟩ := (paid_amounts (a := a) rfl).2 gT
      exact ⟨w', ⟨⟨_, .one h (soloTx_who hwho)⟩, hp', by rw [gw], by rw [gw],
          T.paid (p := p) gT (.inr rfl) rfl rfl rfl, b1, b2⟩, gT.1⟩

/-- The unsold tokens of a completed sale are dealt with, unless that has happened or there are none. -/
theorem turn_unsold {who : Addr → Prop} {w : World} (R : Reachable w) {a : Addr} {p : Presale}
    (hp : w.presales a = some p) (hc : Completed p w.clock) (T : Ready w.tk a p who) (hwho : who p.owner)
    (hnat : totalSold p < p.presaleSupply → p.unsoldTokenAction = 1 →
      ∀ m, w.tk.mints p.baseMint = some m → m.isNative = false) :
    ∃ w' p', Turn who a w w' p'
        (if p.isUnsoldTokenActionPerformed = 1 then 0 else p.presaleSupply - totalSold p) 0 ∧
      (p' = p ∨ p' = { p with isUnsoldTokenActionPerformed := 1 }) ∧
      (totalSold p < p.presaleSupply → p'.isUnsoldTokenActionPerformed = 1) := by
  have S := R.winv.core.sale _ _ hp
  have hfl := S.pinv.flags.u
  by_cases h1 : p.isUnsoldTokenActionPerformed = 1
  · refine ⟨w, p, ?_, .inl rfl, fun _ => h1⟩
    rw [if_pos h1]; exact .none hp T
  · rw [if_neg h1]
    by_cases hpos : totalSold p < p.presaleSupply
    · have h0 : p.isUnsoldTokenActionPerformed = 0 := by omega
      obtain ⟨b, hb, _, _, _, _, _, hsolv⟩ := C02_base_solvent R hp
      have hbal := hsolv hc
      rw [if_neg h1] at hbal
      let x : UnsoldAcc := ⟨a, .baseVault a, p.baseMint, .ata p.owner p.baseMint (progOf w.tk p.baseMint),
        progOf w.tk p.baseMint, [.key 0], slicesFor .transferHookBase w.tk p.baseMint⟩
      obtain ⟨m, hm, _, _⟩ := S.baseMint
      have hprog : progOf w.tk p.baseMint = m.program := by unfold progOf; rw [hm]
      have hsl : slicesInRange x.slices = true := by
        show slicesInRange (slicesFor .transferHookBase w.tk p.baseMint) = true
        have : slicesFor .transferHookBase w.tk p.baseMint =
            if m.hookProgram = none then [] else [⟨.transferHookBase, 1⟩] := by unfold slicesFor; rw [hm]
        rw [this]
        by_cases hh : m.hookProgram = none
        · rw [if_pos hh]; simp [slicesInRange, u32Bound_eq]
        · rw [if_neg hh]; simp [slicesInRange, u32Bound_eq, u8Bound_eq]
      have hpay : UnsoldPossible w.tk (soloTx p.owner) x p (p.presaleSupply - totalSold p) := by
        refine ⟨?_, fun _ => ?_, fun ha => ⟨hsl, T.base, fun m' hm' => ?_⟩⟩
        · obtain ⟨m', d, h1, h2, h3, h4, _⟩ := T.toBase _ hwho
          rw [hm] at h1; cases h1
          exact ⟨d, by show w.tk.toks (.ata p.owner p.baseMint (progOf w.tk p.baseMint)) = some d; rw [hprog]; exact h2,
            h3, h4⟩
        · exact HasAccount.payable (T.toBase _ hwho) rfl (Nat.le_refl _) (.inl rfl) T.base
            (by rw [amountOf_some hb]; omega)
        · have hs := T.supply _ hm'
          rw [amountOf_some hb] at hs
          rw [hm] at hm'; cases hm'
          exact ⟨hprog.symm, hnat hpos ha _ hm, by omega⟩
      obtain ⟨w', rc, h⟩ := C28_unsold_succeeds (x := x) R hp hc h0 hpos rfl rfl rfl hpay
      obtain ⟨p0, g1, _, _, _, gT, gB, gw⟩ := C24_unsold R h
      rw [show x.presale = a from rfl, hp] at g1; cases g1
      have hp' : w'.presales a = some { p with isUnsoldTokenActionPerformed := 1 } := by rw [gw]; exact upd_self _ _ _
      by_cases ha : p.unsoldTokenAction = 1
      · obtain ⟨r1, r2, r3⟩ := T.burnt (p := p) (p' := { p with isUnsoldTokenActionPerformed := 1 }) (gB ha) rfl rfl rfl
        exact ⟨w', _, ⟨⟨_, .one h (soloTx_who hwho)⟩, hp', by rw [gw], by rw [gw], r1, r2, r3⟩, .inr rfl, fun _ => rfl⟩
      · have gT := gT ha
        obtain ⟨b1, b2⟩ := (paid_amounts (a := a) rfl).1 gT
        exact ⟨w', _, ⟨⟨_, .one h (soloTx_who hwho)⟩, hp', by rw [gw], by rw [gw], T.paid (p := p) gT (.inl rfl) rfl rfl rfl, b1, b2⟩,
          .inr rfl, fun _ => rfl⟩
    · refine ⟨w, p, ?_, .inl rfl, fun h => absurd h hpos⟩
      rw [show p.presaleSupply - totalSold p = 0 by omega]; exact .none hp T


theorem saleSum_none {es : AMap Addr Escrow} {a : Addr} (f : Escrow → Nat) (hn : (AMap.keys es).Nodup)
    (h : ∀ k e, es.get? k = some e → e.presale ≠ a) : saleSum es a f = 0 := by
  have h1 : saleSum es a f = saleSum es a (fun _ => 0) :=
    saleSum_congr (fun x hx ha => absurd ha (h x.1 x.2 (AMap.mem_get? hn hx)))
  rw [h1]
  unfold saleSum
  have : (fun x : Addr × Escrow => if x.2.presale = a then (0 : Nat) else 0) = fun _ => 0 := by
    funext x; split <;> rfl
  rw [this]; simp

/-! ## Everything -/

/-- **C69.** From any reachable state in which a sale is over and vested, in which the creator and the owners of its
escrows can sign and have usable token accounts, and in which the vaults are not frozen, these people alone can
settle the sale: some sequence of instructions, all successful and signed by nobody else, closes every escrow, pays
the creator everything, and takes out of the two vaults exactly what they owed. The one exception is a burn of
unsold tokens of the native mint, which the token program refuses (C56). -/
theorem C69_windup {w : World} (R : Reachable w) {a : Addr} {p : Presale} (hp : w.presales a = some p)
    (hv : Vested p w.clock) (T : Ready w.tk a p (Participant w a p))
    (hnat : p.presaleMinimumCap ≤ p.totalDeposit → totalSold p < p.presaleSupply → p.unsoldTokenAction = 1 →
      ∀ m, w.tk.mints p.baseMint = some m → m.isNative = false) :
    ∃ l w' p', Performed (Participant w a p) w l w' ∧ w'.presales a = some p' ∧ w'.clock = w.clock ∧
      WoundUp w w' a p p' := by
  generalize hW : Participant w a p = who at T ⊢
  have hown : who p.owner := by rw [← hW]; exact .inl rfl
  obtain ⟨w1, p1, G, hnone⟩ := wind_escrows (who := who) p.totalEscrow R hp hv T
    (fun k e hk ha => by rw [← hW]; exact .inr ⟨k, e, hk, ha, rfl⟩) (Nat.le_refl _)
  have hb := G.books R hv.over
  have R1 := G.reachable R
  obtain ⟨l1, hl1⟩ := G.performed
  have hv1 : Vested p1 w1.clock := by rw [G.clock]; exact hv.books hb
  obtain ⟨f1, f2, f3⟩ := G.flags
  obtain ⟨s1, s2⟩ := G.sum
  have hown1 : p1.owner = p.owner := show (Verif.books p1).owner = (Verif.books p).owner by rw [hb]
  have hsup1 : p1.presaleSupply = p.presaleSupply :=
    show (Verif.books p1).presaleSupply = (Verif.books p).presaleSupply by rw [hb]
  have hact1 : p1.unsoldTokenAction = p.unsoldTokenAction :=
    show (Verif.books p1).unsoldTokenAction = (Verif.books p).unsoldTokenAction by rw [hb]
  have hbm1 : p1.baseMint = p.baseMint := show (Verif.books p1).baseMint = (Verif.books p).baseMint by rw [hb]
  have e1 := raise_congr hb
  have e2 := collectableFee_congr hb
  have e3 := totalSold_congr hb
  -- what the escrows took
  have hcons := run_conserve R.winv (l1.map (fun x => .ix x.1 x.2)) hp (by rw [← hl1.run]; exact G.presale') hv.over
  rw [← hl1.run, saleSum_none _ R1.winv.core.nodup hnone, saleSum_none _ R1.winv.core.nodup hnone] at hcons
  obtain ⟨hcq, hcb⟩ := hcons
  have hGq := G.quote
  have hGb := G.base
  -- the creator
  have hown' : who p1.owner := by rw [hown1]; exact hown
  obtain ⟨w2, G2, m2⟩ := turn_withdraw R1 G.presale' hv1.over (G.ready T) hown'
  have R2 := G2.reachable R1
  obtain ⟨l2, hl2⟩ := G2.performed
  have hq2 := G2.quote
  have hb2 := G2.base
  by_cases hmin : p.presaleMinimumCap ≤ p.totalDeposit
  · have hmin1 : p1.presaleMinimumCap ≤ p1.totalDeposit := by omega
    have hc1 : Completed p1 w2.clock := ⟨by rw [G2.clock]; exact hv1.over, hmin1⟩
    obtain ⟨w3, G3, m3⟩ := turn_collect R2 G2.presale' hc1 G2.ready hown'
    have R3 := G3.reachable R2
    obtain ⟨l3, hl3⟩ := G3.performed
    have hq3 := G3.quote
    have hb3 := G3.base
    have hc3 : Completed p1 w3.clock := by rw [G3.clock]; exact hc1
    have hmn : totalSold p < p.presaleSupply → p.unsoldTokenAction = 1 →
        ∀ m, w3.tk.mints p.baseMint = some m → m.isNative = false := by
      rw [m3, m2, G.mints]; exact hnat hmin
    obtain ⟨w4, p4, G4, h4, h4u⟩ := turn_unsold R3 G3.presale' hc3 G3.ready hown' (fun h1 h2 m h3 => by
      refine hmn ?_ (hact1.symm.trans h2) m (by rw [← hbm1]; exact h3)
      rw [← e3, ← hsup1]; exact h1)
    obtain ⟨l4, hl4⟩ := G4.performed
    have hq4 := G4.quote
    have hb4 := G4.base
    refine ⟨_, w4, p4, ((hl1.append hl2).append hl3).append hl4, G4.presale', by rw [G4.clock, G3.clock, G2.clock, G.clock],
      ?_, ?_, fun _ => ?_, fun _ h => h4u ?_, ?_, ?_⟩
    · rw [G4.escrows, G3.escrows, G2.escrows]; exact hnone
    · rcases h4 with rfl | rfl <;> rfl
    · rcases h4 with rfl | rfl <;> rfl
    · show totalSold p1 < p1.presaleSupply
      rw [e3, hsup1]; exact h
    · unfold quoteOwed
      rw [if_pos hmin]
      rw [if_pos hmin1, f1, e1] at hq2
      rw [show collectableFee { p1 with hasCreatorWithdrawn := 1 } = collectableFee p1 from rfl, e2] at hq3
      simp only [f2] at hq3
      omega
    · unfold baseOwed
      rw [if_pos hmin]
      rw [if_pos hmin1] at hb2
      have hb4' : amountOf w4.tk (.baseVault a) +
          (if p.isUnsoldTokenActionPerformed = 1 then 0 else p.presaleSupply - totalSold p) =
          amountOf w3.tk (.baseVault a) := by rw [← f3, ← e3, ← hsup1]; exact hb4
      have := hcb hmin
      omega
  · have hmin1 : ¬ p1.presaleMinimumCap ≤ p1.totalDeposit := by omega
    refine ⟨_, w2, _, hl1.append hl2, G2.presale', by rw [G2.clock, G.clock], ?_, rfl, fun h => absurd h hmin,
      fun h => absurd h hmin, ?_, ?_⟩
    · rw [G2.escrows]; exact hnone
    · unfold quoteOwed
      rw [if_neg hmin]
      rw [if_neg hmin1] at hq2
      omega
    · unfold baseOwed
      rw [if_neg hmin]
      rw [if_neg hmin1, f1, hsup1] at hb2
      have := G.claims (by omega)
      omega


/-- **C69**, afterwards: a sale that is wound up owes nothing any more. -/
theorem C69_nothing_owed {w w' : World} (R : Reachable w) {l : List (Tx × Ix)} {who : Addr → Prop}
    (hl : Performed who w l w') {a : Addr} {p p' : Presale} (hp : w.presales a = some p)
    (hp' : w'.presales a = some p') (ho : Over p w.clock) (h : WoundUp w w' a p p') :
    quoteOwed w' a p' = 0 ∧ baseOwed w' a p' = 0 := by
  obtain ⟨q, hq, L⟩ := run_later R.winv (l.map (fun x => .ix x.1 x.2)) hp
  rw [← hl.run, hp'] at hq; cases hq
  have hb := L.frozen ho
  have R' : Reachable w' := by rw [hl.run]; exact R.run _
  have s1 : p'.totalDeposit = p.totalDeposit :=
    show (Verif.books p').totalDeposit = (Verif.books p).totalDeposit by rw [hb]
  have s2 : p'.presaleMinimumCap = p.presaleMinimumCap :=
    show (Verif.books p').presaleMinimumCap = (Verif.books p).presaleMinimumCap by rw [hb]
  have s3 : p'.presaleSupply = p.presaleSupply :=
    show (Verif.books p').presaleSupply = (Verif.books p).presaleSupply by rw [hb]
  have s4 := totalSold_congr hb
  unfold quoteOwed baseOwed
  rw [saleSum_none _ R'.winv.core.nodup h.escrows, saleSum_none _ R'.winv.core.nodup h.escrows, if_pos h.withdrawn,
    if_pos h.withdrawn, s1, s2]
  by_cases hmin : p.presaleMinimumCap ≤ p.totalDeposit
  · rw [if_pos hmin, if_pos hmin, if_pos (h.fees hmin), s3, s4]
    refine ⟨rfl, ?_⟩
    by_cases hs : totalSold p < p.presaleSupply
    · rw [if_pos (h.unsold hmin hs)]
    · split <;> omega
  · rw [if_neg hmin, if_neg hmin]; exact ⟨rfl, rfl⟩

/-- **C69**, from any point of a sale's life: once enough time has passed, the sale can be settled as above. -/
theorem C69_eventually {w : World} (R : Reachable w) {a : Addr} {p : Presale} (hp : w.presales a = some p)
    (T : Ready w.tk a p (Participant w a p))
    (hnat : p.presaleMinimumCap ≤ p.totalDeposit → totalSold p < p.presaleSupply → p.unsoldTokenAction = 1 →
      ∀ m, w.tk.mints p.baseMint = some m → m.isNative = false) (n : Nat)
    (hn : p.presaleEndTime + p.vestingStartTime + p.vestDuration ≤ n) :
    ∃ l w' p', Performed (Participant w a p) (apply w (.tick n)) l w' ∧ w'.presales a = some p' ∧
      WoundUp (apply w (.tick n)) w' a p p' := by
  have hs : step w (.tick n) = .ok ({ w with clock := w.clock + n }, noReceipt) := rfl
  have R1 := R.step hs
  rw [apply_ok hs]
  have hclk := (R.winv.core.sale _ _ hp).clock
  have ho : Over p (w.clock + n) := by unfold Over; omega
  have hv : Vested p (w.clock + n) := by
    by_cases hmin : p.presaleMinimumCap ≤ p.totalDeposit
    · exact .inr ⟨⟨ho, hmin⟩, by omega⟩
    · exact .inl ⟨ho, by omega⟩
  obtain ⟨l, w', p', h1, h2, _, h3⟩ := C69_windup (w := { w with clock := w.clock + n }) R1 hp hv T hnat
  exact ⟨l, w', p', h1, h2, h3⟩

/-! ### A sale that is ready -/

/-- Checks `HasAccount`. -/
def hasAccount (k : Tokens) (a mint o : Addr) : Bool :=
  match k.mints mint with
  | some m => match k.toks (.ata o mint m.program) with
    | some d => decide (d.owner = o ∧ d.mint = mint ∧ d.frozen = false ∧
        d.amount + amountOf k (.baseVault a) + amountOf k (.quoteVault a) < 2 ^ 64)
    | none => false
  | none => false

theorem hasAccount_ok {k : Tokens} {a mint o : Addr} (h : hasAccount k a mint o = true) : HasAccount k a mint o := by
  unfold hasAccount at h
  split at h
  · rename_i m hm
    split at h
    · rename_i d hd
      exact ⟨m, d, hm, hd, of_decide_eq_true h⟩
    · cases h
  · cases h

/-- Checks `Ready` for the participants. -/
def readyCheck (w : World) (a : Addr) (p : Presale) : Bool :=
  (match w.tk.toks (.baseVault a) with | some v => !v.frozen | none => true) &&
  (match w.tk.toks (.quoteVault a) with | some v => !v.frozen | none => true) &&
  (match w.tk.mints p.baseMint with | some m => decide (amountOf w.tk (.baseVault a) ≤ m.supply) | none => true) &&
  (p.owner :: w.escrows.map (fun x => x.2.owner)).all (fun o =>
    o.isKey && hasAccount w.tk a p.baseMint o && hasAccount w.tk a p.quoteMint o)

theorem readyCheck_ok {w : World} {a : Addr} {p : Presale} (h : readyCheck w a p = true) :
    Ready w.tk a p (Participant w a p) := by
  unfold readyCheck at h
  simp only [Bool.and_eq_true, List.all_eq_true] at h
  obtain ⟨⟨⟨h1, h2⟩, h3⟩, h4⟩ := h
  have key : ∀ o, Participant w a p o → o.isKey = true ∧ hasAccount w.tk a p.baseMint o = true ∧
      hasAccount w.tk a p.quoteMint o = true := by
    intro o ho
    have : o ∈ p.owner :: w.escrows.map (fun x => x.2.owner) := by
      rcases ho with rfl | ⟨k, e, hk, _, rfl⟩
      · exact List.mem_cons_self
      · exact List.mem_cons_of_mem _ (List.mem_map.2 ⟨(k, e), AMap.get?_mem hk, rfl⟩)
    obtain ⟨⟨g1, g2⟩, g3⟩ := h4 o this
    exact ⟨g1, g2, g3⟩
  refine ⟨fun v hv => ?_, fun v hv => ?_, fun m hm => ?_, fun o ho => (key o ho).1,
    fun o ho => hasAccount_ok (key o ho).2.1, fun o ho => hasAccount_ok (key o ho).2.2⟩
  · rw [hv] at h1; simpa using h1
  · rw [hv] at h2; simpa using h2
  · rw [hm] at h3; simpa using h3

/-- Accounts for everybody. -/
def readyOps : List Op :=
  [.setTok (.ata Ex.creator Ex.qm .splToken2022) (some (Ex.acct Ex.qm Ex.creator 0)),
   .setTok (.ata Ex.alice Ex.qm .splToken2022) (some (Ex.acct Ex.qm Ex.alice 7)),
   .setTok (.ata Ex.bob Ex.qm .splToken2022) (some (Ex.acct Ex.qm Ex.bob 0)),
   .setTok (.ata Ex.alice Ex.bm .splToken) (some (Ex.acct Ex.bm Ex.alice 0)),
   .setTok (.ata Ex.bob Ex.bm .splToken) (some (Ex.acct Ex.bm Ex.bob 3))]

/-- The state the theorem is about, as a check: over, vested, ready, and the burn (if any) possible. -/
def windupCheck (w : World) : Bool :=
  match w.presales Ex.sale with
  | some p => decide ((p.presaleEndTime : Int) ≤ w.clock) &&
      decide (((p.vestingStartTime + p.vestDuration : Nat) : Int) ≤ w.clock) && readyCheck w Ex.sale p &&
      (match w.tk.mints p.baseMint with | some m => !m.isNative | none => true)
  | none => false

theorem windupCheck_ok {w : World} (R : Reachable w) (h : windupCheck w = true) :
    ∃ p l w' p', w.presales Ex.sale = some p ∧ Performed (Participant w Ex.sale p) w l w' ∧
      w'.presales Ex.sale = some p' ∧ WoundUp w w' Ex.sale p p' := by
  unfold windupCheck at h
  split at h
  · rename_i p hp
    simp only [Bool.and_eq_true, decide_eq_true_eq] at h
    obtain ⟨⟨⟨h1, h2⟩, h3⟩, h4⟩ := h
    have ho : Over p w.clock := by unfold Over; omega
    have hv : Vested p w.clock := by
      by_cases hmin : p.presaleMinimumCap ≤ p.totalDeposit
      · exact .inr ⟨⟨ho, hmin⟩, h2⟩
      · exact .inl ⟨ho, by omega⟩
    obtain ⟨l, w', p', g1, g2, _, g3⟩ := C69_windup R hp hv (readyCheck_ok h3) (fun _ _ _ m hm => by
      rw [hm] at h4; simpa using h4)
    exact ⟨p, l, w', p', hp, g1, g2, g3⟩
  · cases h

/-- The oversubscribed pro-rata sale, the fixed-price sale that burns its unsold tokens, and the failed sale, each
with two escrows. -/
example : windupCheck (run Ex.prorataVested readyOps) = true ∧ windupCheck (run Ex.fixedVested readyOps) = true ∧
    windupCheck (run Ex.failedDone (.tick 5000 :: readyOps)) = true := by decide +kernel


end Verif
