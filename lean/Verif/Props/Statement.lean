import Verif.SpecStatement
import Verif.Lemmas.Flow
import Verif.Lemmas.Tally
import Verif.Lemmas.Evolve
import Verif.Props.Receipts
import Verif.Props.Hooks
import Verif.Props.Events
/-!
# C114 — the bank statement of every vault
-/

namespace Verif
open Spec

/-- What the account `v` holds on a token ledger. -/
def held (k : Tokens) (v : Addr) : Nat := ((k.toks v).map TokAcct.amount).getD 0

theorem transfer_statement {k : Tokens} {authority mint src dst : Addr} {prog : TokenProgram} {amount : Nat}
    {hooks : Option (List Addr)} {accept : Bool} {k' : Tokens} {cpi : Cpi}
    (h : transferTokens k authority mint src dst prog amount hooks accept = .ok (k', cpi)) (v : Addr) :
    held k' v + debit v cpi = held k v + credit v cpi := by
  obtain ⟨s, d, m, dlg, T⟩ := transferTokens_iff.1 h
  have hen := T.enough
  rw [T.cpi, T.post]
  unfold held debit credit
  by_cases he : src = dst
  · subst he
    rw [if_pos rfl]
    by_cases hv : src = v
    · simp only [hv, if_true]
    · simp only [hv, if_false]
  · rw [if_neg he]
    by_cases h1 : dst = v
    · subst h1
      simp only [upd_self, he, if_false, if_true, T.hd, Option.map_some, Option.getD_some]
      omega
    · by_cases h2 : src = v
      · subst h2
        simp only [upd_other _ _ (Ne.symm h1), upd_self, h1, if_false, if_true, T.hs, Option.map_some,
          Option.getD_some]
        omega
      · simp only [upd_other _ _ (Ne.symm h1), upd_other _ _ (Ne.symm h2), h1, h2, if_false]

theorem burn_statement {k : Tokens} {authority mint src : Addr} {prog : TokenProgram} {amount : Nat}
    {k' : Tokens} {cpi : Cpi} (h : burnTokens k prog src mint authority amount = .ok (k', cpi)) (v : Addr) :
    held k' v + debit v cpi = held k v + credit v cpi := by
  obtain ⟨s, m, dlg, B⟩ := burnTokens_iff.1 h
  have hen := B.enough
  rw [B.cpi, B.post]
  unfold held debit credit
  by_cases h2 : src = v
  · subst h2
    simp only [upd_self, if_true, B.hs, Option.map_some, Option.getD_some]
    omega
  · simp only [upd_other _ _ (Ne.symm h2), h2, if_false]

theorem opened_held {w : World} {a : InitPresaleAcc} (hb : w.tk.toks (.baseVault a.presaleKey) = none)
    (hq : w.tk.toks (.quoteVault a.presaleKey) = none) (v : Addr) :
    held { w.tk with toks := upd (upd w.tk.toks (.baseVault a.presaleKey) (some (freshVault a.presaleMint)))
                          (.quoteVault a.presaleKey) (some (freshVault a.quoteTokenMint)) } v = held w.tk v := by
  unfold held
  simp only [upd_apply]
  split
  · next h => subst h; rw [hq]; rfl
  · split
    · next h => subst h; rw [hb]; rfl
    · rfl

theorem ix_statement {w w' : World} {tx : Tx} {i : Ix} {rc : Receipt} (h : execIx w tx i = .ok (w', rc)) (v : Addr) :
    held w'.tk v + (rc.cpis.map (debit v)).sum = held w.tk v + (rc.cpis.map (credit v)).sum := by
  have same : w'.tk = w.tk → rc.cpis = [] →
      held w'.tk v + (rc.cpis.map (debit v)).sum = held w.tk v + (rc.cpis.map (credit v)).sum := by
    intro h1 h2; rw [h1, h2]; rfl
  have one : ∀ {cpi}, rc.cpis = [cpi] → held w'.tk v + debit v cpi = held w.tk v + credit v cpi →
      held w'.tk v + (rc.cpis.map (debit v)).sum = held w.tk v + (rc.cpis.map (credit v)).sum := by
    intro cpi h1 h2; rw [h1]; simpa using h2
  cases i with
  | initFixedArgs a =>
    have F := handleInitFixedArgs_iff.1 h
    exact same (by rw [F.post]) (by rw [F.receipt])
  | closeFixedArgs a =>
    obtain ⟨_, F⟩ := handleCloseFixedArgs_iff.1 h
    exact same (by rw [F.post]) (by rw [F.receipt])
  | initPresale a =>
    obtain ⟨bm, qm, p, rem, supply, inc, hooks, rest, tk, cpi, F⟩ := handleInitPresale_iff.1 h
    refine one (by rw [F.receipt]) ?_
    rw [F.post, ← opened_held F.fresh.2.1 F.fresh.2.2]
    exact transfer_statement F.transfer v
  | createMerkle a =>
    obtain ⟨_, F⟩ := handleCreateMerkle_iff.1 h
    exact same (by rw [F.post]) (by rw [F.receipt])
  | closeMerkle a =>
    obtain ⟨_, _, F⟩ := handleCloseMerkle_iff.1 h
    exact same (by rw [F.post]) (by rw [F.receipt])
  | createEscrow a =>
    obtain ⟨_, _, _, _, F⟩ := handleCreateEscrow_iff.1 h
    exact same (by rw [F.post]) (by rw [F.receipt])
  | createEscrowCreator a =>
    obtain ⟨_, _, _, _, _, F⟩ := handleCreateEscrowCreator_iff.1 h
    exact same (by rw [F.post]) (by rw [F.receipt])
  | createEscrowMerkle a =>
    obtain ⟨_, _, _, _, _, F⟩ := handleCreateEscrowMerkle_iff.1 h
    exact same (by rw [F.post]) (by rw [F.receipt])
  | createOperator a =>
    have F := handleCreateOperator_iff.1 h
    exact same (by rw [F.post]) (by rw [F.receipt])
  | revokeOperator a =>
    obtain ⟨_, F⟩ := handleRevokeOperator_iff.1 h
    exact same (by rw [F.post]) (by rw [F.receipt])
  | deposit a =>
    obtain ⟨p, m, e, d, inc, hooks, rest, tk, cpi, F⟩ := handleDeposit_iff.1 h
    exact one (by rw [F.receipt]) (by rw [F.post]; exact transfer_statement F.transfer v)
  | withdraw a =>
    obtain ⟨p, m, e, p', e', n, hooks, rest, tk, cpi, ex, F⟩ := handleWithdraw_iff.1 h
    exact one (by rw [F.receipt]) (by rw [F.post]; exact transfer_statement F.transfer v)
  | claim a =>
    obtain ⟨p, m, e, hd, e1, ex, F⟩ := handleClaim_iff.1 h
    rcases F.out with ⟨_, p', e', hooks, rest, tk, cpi, _, _, g3, g4, g5⟩ | ⟨_, g4, g5⟩
    · exact one (by rw [g5]) (by rw [g4]; exact transfer_statement g3 v)
    · exact same (by rw [g4]) (by rw [g5])
  | refund a =>
    obtain ⟨p, m, e, q, p', hooks, rest, ex, F⟩ := handleRefund_iff.1 h
    rcases F.out with ⟨_, tk, cpi, g3, g4, g5⟩ | ⟨_, g4, g5⟩
    · exact one (by rw [g5]) (by rw [g4]; exact transfer_statement g3 v)
    · exact same (by rw [g4]) (by rw [g5])
  | unsold a =>
    obtain ⟨p, c, hd, n, tk, cpi, F⟩ := handleUnsold_iff.1 h
    refine one (by rw [F.receipt]) ?_
    rw [F.post]
    have hperf := F.perform
    generalize UnsoldTokenAction.ofByte p.unsoldTokenAction = act at hperf
    cases act with
    | burn => exact burn_statement hperf v
    | refund =>
      simp only [performUnsold, bind_eq_ok, Prod.exists] at hperf
      obtain ⟨hooks, rest, _, h2⟩ := hperf
      exact transfer_statement h2 v
  | closeEscrow a =>
    obtain ⟨_, _, _, F⟩ := handleCloseEscrow_iff.1 h
    exact same (by rw [F.post]) (by rw [F.receipt])
  | creatorWithdraw a =>
    obtain ⟨p, c, hooks, rest, tk, cpi, m, ex, F⟩ := handleCreatorWithdraw_iff.1 h
    exact one (by rw [F.receipt]) (by rw [F.post]; exact transfer_statement F.transfer v)
  | refresh a =>
    obtain ⟨_, _, _, F⟩ := (handleRefresh_iff (tx := tx)).1 h
    exact same (by rw [F.post]) (by rw [F.receipt])
  | createMetadata a =>
    obtain ⟨_, F⟩ := handleCreateMetadata_iff.1 h
    exact same (by rw [F.post]) (by rw [F.receipt])
  | closeMetadata a =>
    obtain ⟨_, _, F⟩ := handleCloseMetadata_iff.1 h
    exact same (by rw [F.post]) (by rw [F.receipt])
  | collectFee a =>
    obtain ⟨p, m, fee, ex, F⟩ := handleCollectFee_iff.1 h
    rcases F.out with ⟨_, hooks, rest, tk, cpi, _, g3, g4, g5⟩ | ⟨_, g4, g5⟩
    · exact one (by rw [g5]) (by rw [g4]; exact transfer_statement g3 v)
    · exact same (by rw [g4]) (by rw [g5])

theorem step_statement {w w' : World} {op : Op} {rc : Receipt} (h : step w op = .ok (w', rc)) {v : Addr}
    (hv : v.isVault = true) :
    balance w' v + (rc.cpis.map (debit v)).sum = balance w v + (rc.cpis.map (credit v)).sum + sent v op := by
  cases op with
  | ix tx i => exact ix_statement (i := i) h v
  | tick s =>
    simp only [Verif.step, ok_eq_ok, Prod.mk.injEq] at h
    obtain ⟨rfl, rfl⟩ := h
    rfl
  | setTok b t =>
    simp only [Verif.step, bind_eq_ok, require_eq_ok, pure_eq_ok, exists_const, Prod.mk.injEq] at h
    obtain ⟨h1, _, rfl, rfl⟩ := h
    have : v ≠ b := by rintro rfl; rw [hv] at h1; cases h1
    show ((upd w.tk.toks b t v).map TokAcct.amount).getD 0 + 0 = _
    rw [upd_other _ _ this]
    rfl
  | donate b n =>
    simp only [Verif.step, bind_eq_ok, load_eq_ok, require_eq_ok, pure_eq_ok, exists_const, Prod.mk.injEq] at h
    obtain ⟨t, h1, _, rfl, rfl⟩ := h
    show ((upd w.tk.toks b (some { t with amount := t.amount + n }) v).map TokAcct.amount).getD 0 + 0 =
      ((w.tk.toks v).map TokAcct.amount).getD 0 + 0 + if b = v ∧ b.isVault = true then n else 0
    by_cases hb : b = v
    · subst hb
      rw [upd_self, h1, if_pos ⟨rfl, hv⟩]
      simp
    · rw [upd_other _ _ (Ne.symm hb), if_neg (fun h => hb h.1)]
  | freezeVault b f =>
    simp only [Verif.step, bind_eq_ok, load_eq_ok, pure_eq_ok, Prod.mk.injEq] at h
    obtain ⟨t, h1, rfl, rfl⟩ := h
    show ((upd w.tk.toks b (some { t with frozen := f }) v).map TokAcct.amount).getD 0 + 0 =
      ((w.tk.toks v).map TokAcct.amount).getD 0 + 0 + 0
    by_cases hb : v = b
    · subst hb
      rw [upd_self, h1]
      rfl
    · rw [upd_other _ _ hb]
  | setMint b m =>
    simp only [Verif.step, bind_eq_ok, require_eq_ok, pure_eq_ok, exists_const, Prod.mk.injEq] at h
    obtain ⟨_, _, rfl, rfl⟩ := h
    rfl

theorem summed_append (f : Cpi → Nat) (l l' : List StepRec) : summed f (l ++ l') = summed f l + summed f l' := by
  simp [summed]

theorem summed_one (f : Cpi → Nat) (s : StepRec) : summed f [s] = (s.receipt.cpis.map f).sum := by
  simp [summed]

/-- **C114, the statement.** Whatever the history: what a vault holds at the end is what it held at the beginning,
plus what the calls of the token programs put in and what was sent straight to it, less what the calls took out. -/
theorem C114_statement (w : World) (ops : List Op) {v : Addr} (hv : v.isVault = true) :
    balance (run w ops) v + summed (debit v) (trace w ops) =
      balance w v + summed (credit v) (trace w ops) + given (trace w ops) v := by
  induction ops using List.reverseRecOn with
  | nil => rfl
  | append_singleton ops op ih =>
    rw [trace_snoc, run_snoc]
    unfold attempt
    cases h : step (run w ops) op with
    | error e =>
      have : apply (run w ops) op = run w ops := by unfold apply; rw [h]
      rw [this, List.append_nil]
      exact ih
    | ok x =>
      obtain ⟨w', rc⟩ := x
      rw [apply_ok h]
      have hs := step_statement h hv
      simp only [summed_append, summed_one]
      have hg : ∀ l (s : StepRec), given (l ++ [s]) v = given l v + sent v s.op := by
        intro l s; simp [given]
      rw [hg]
      simp only
      omega

/-! ## Who took it -/

/-- What the creator took from the quote vault of a sale that may not exist. -/
def tookQuote (w : World) (a : Addr) : Nat :=
  match w.presales a with
  | some p => takenQuote p
  | none => 0

/-- What left the base vault of a sale that may not exist, otherwise than by claims. -/
def tookBase (w : World) (a : Addr) : Nat :=
  match w.presales a with
  | some p => takenBase p
  | none => 0

/-- What a sale that may not exist has for sale. -/
def supplied (w : World) (a : Addr) : Nat :=
  match w.presales a with
  | some p => p.presaleSupply
  | none => 0

theorem taken_same {t : Nat} {p p' : Presale} (F : Flags t p) (hf : p'.hasCreatorWithdrawn = p.hasCreatorWithdrawn ∧
      p'.depositFeeCollected = p.depositFeeCollected ∧
      p'.isUnsoldTokenActionPerformed = p.isUnsoldTokenActionPerformed)
    (hb : p.presaleEndTime ≤ t → books p' = books p) :
    takenQuote p' = takenQuote p ∧ takenBase p' = takenBase p := by
  obtain ⟨h1, h2, h3⟩ := hf
  by_cases ht : p.presaleEndTime ≤ t
  · have hb := hb ht
    have e1 : p'.totalDeposit = p.totalDeposit := (congrArg Presale.totalDeposit hb :)
    have e2 : p'.presaleMinimumCap = p.presaleMinimumCap := (congrArg Presale.presaleMinimumCap hb :)
    have e3 : p'.presaleMaximumCap = p.presaleMaximumCap := (congrArg Presale.presaleMaximumCap hb :)
    have e4 : p'.presaleSupply = p.presaleSupply := (congrArg Presale.presaleSupply hb :)
    unfold takenQuote takenBase raise
    rw [h1, h2, h3, e1, e2, e3, e4, collectableFee_congr hb, totalSold_congr hb]
    exact ⟨rfl, rfl⟩
  · have g1 := F.open_ (by omega)
    obtain ⟨g2, g3⟩ := F.failed (.inl (by omega))
    unfold takenQuote takenBase
    rw [h1, h2, h3, g1, g2, g3]
    simp

/-- The three instructions by which tokens leave a vault that are not a buyer's. -/
def Ix.takes : Ix → Bool
  | .creatorWithdraw _ => true
  | .collectFee _ => true
  | .unsold _ => true
  | _ => false

theorem Act.taken {w : World} {a : Addr} {p p' : Presale} {tx : Tx} {i : Ix} {es' : AMap Addr Escrow}
    (W : WInv w) (hp : w.presales a = some p) (A : Act w a p tx i p' es') (hi : i.takes = false) :
    takenQuote p' = takenQuote p ∧ takenBase p' = takenBase p := by
  have S := W.core.sale _ _ hp
  have F := S.pinv.flags
  have L := (A.later S.clock).frozen
  have hb : p.presaleEndTime ≤ w.clock.toNat → books p' = books p := by
    intro h; apply L; have := S.clock; unfold Over; omega
  refine taken_same F ?_ hb
  cases A with
  | deposit _ _ _ _ facts =>
    rcases endIfMaxCapReached_iff.1 facts.finish with ⟨_, _, _, _, h⟩ | ⟨_, h⟩ <;> rw [h] <;> exact ⟨rfl, rfl, rfl⟩
  | withdraw _ _ _ _ _ facts => rw [facts.presale]; exact ⟨rfl, rfl, rfl⟩
  | creatorWithdrew => cases hi
  | collected => cases hi
  | unsold => cases hi
  | _ => exact ⟨rfl, rfl, rfl⟩

theorem fresh_taken {t : Nat} {p : Presale} (D : Documented t p) : takenQuote p = 0 ∧ takenBase p = 0 := by
  obtain ⟨_, _, _, _, _, h1, h2, h3⟩ := D.counters
  unfold takenQuote takenBase
  rw [h1, h2, h3]
  simp

theorem step_took {w w' : World} (W : WInv w) {op : Op} {rc : Receipt} (h : step w op = .ok (w', rc))
    (hi : ∀ tx i, op = .ix tx i → i.takes = false) (a : Addr) :
    tookQuote w' a = tookQuote w a ∧ tookBase w' a = tookBase w a := by
  unfold tookQuote tookBase
  cases step_effect W h with
  | quiet h1 => rw [h1]; exact ⟨rfl, rfl⟩
  | @create tx x p h1 h2 h3 h4 =>
    rw [h4]
    by_cases ha : a = x.presaleKey
    · subst ha
      rw [upd_self, h2]
      exact fresh_taken h3
    · rw [upd_other _ _ ha]; exact ⟨rfl, rfl⟩
  | @act tx i b q q' es' h1 h2 h3 h4 =>
    rw [h4]
    by_cases ha : a = b
    · subst ha
      rw [upd_self, h2]
      exact h3.taken W h2 (hi _ _ h1)
    · rw [upd_other _ _ ha]; exact ⟨rfl, rfl⟩

theorem step_supplied {w w' : World} (W : WInv w) {op : Op} {rc : Receipt} (h : step w op = .ok (w', rc))
    {a : Addr} (ha : ∀ tx x, op = .ix tx (.initPresale x) → a ≠ x.presaleKey) : supplied w' a = supplied w a := by
  unfold supplied
  cases step_effect W h with
  | quiet h1 => rw [h1]
  | @create tx x p h1 h2 h3 h4 => rw [h4, upd_other _ _ (ha _ _ h1)]
  | @act tx i b q q' es' h1 h2 h3 h4 =>
    rw [h4]
    by_cases hb : a = b
    · subst hb
      rw [upd_self, h2]
      exact (congrArg Presale.presaleSupply h3.terms_eq :)
    · rw [upd_other _ _ hb]

/-- What a step does to the accounts of sale `a`. -/
structure Attributed (w w' : World) (a : Addr) (s : StepRec) : Prop where
  quoteOut : (s.receipt.cpis.map (debit (.quoteVault a))).sum + tookQuote w a =
    tookQuote w' a + part .withdraw (ofSale a) s + part .refund (ofSale a) s
  baseOut : (s.receipt.cpis.map (debit (.baseVault a))).sum + tookBase w a = tookBase w' a + part .claim (ofSale a) s
  quoteIn : (s.receipt.cpis.map (credit (.quoteVault a))).sum =
    part .deposit (ofSale a) s + (s.receipt.cpis.map (paidBack (.quoteVault a))).sum
  baseIn : (s.receipt.cpis.map (credit (.baseVault a))).sum + supplied w a =
    supplied w' a + (s.receipt.cpis.map (paidBack (.baseVault a))).sum

theorem silent_attributed {w w' : World} (W : WInv w) {op : Op} {rc : Receipt} (h : step w op = .ok (w', rc))
    (hrc : rc.cpis = []) (hi : ∀ tx i, op = .ix tx i → i.takes = false)
    (hc : ∀ tx x, op ≠ .ix tx (.initPresale x)) (a : Addr) : Attributed w w' a ⟨w, op, rc, w'⟩ := by
  have hpart : ∀ K, part K (ofSale a) ⟨w, op, rc, w'⟩ = 0 := by
    intro K
    unfold part volume
    simp only [hrc, List.map_nil, List.sum_nil]
    split
    · cases K <;> simp
    · rfl
  obtain ⟨t1, t2⟩ := step_took W h hi a
  have t3 := step_supplied W h (a := a) (fun tx x e => (hc tx x e).elim)
  constructor
  all_goals simp only [hpart, hrc, List.map_nil, List.sum_nil]
  all_goals omega

/-- The calls `l` take `n` out of `v`, signed for by the program. -/
structure Pays (l : List Cpi) (v : Addr) (n : Nat) : Prop where
  out : ∀ x, (l.map (debit x)).sum = if v = x then n else 0
  all : (l.map debitedBy).sum = n
  own : ∀ x, (l.map (credit x)).sum = (l.map (paidBack x)).sum

theorem pays_out (m : MintInfo) (mint v dst : Addr) (n : Nat) : Pays (paidOut m mint v dst n) v n := by
  refine ⟨fun x => ?_, ?_, fun x => ?_⟩
  · simp [paidOut, debit]
  · simp [paidOut, debitedBy]
  · simp [paidOut, paidBack]

theorem pays_any (m : MintInfo) (mint v dst : Addr) (n : Nat) : Pays (paidIfAny m mint v dst n) v n := by
  unfold paidIfAny
  split
  · next h => subst h; exact ⟨fun x => by simp, rfl, fun x => rfl⟩
  · exact pays_out m mint v dst n

theorem pays_burn (mint v : Addr) (n : Nat) : Pays [.burn mint v n] v n :=
  ⟨fun x => by simp [debit], by simp [debitedBy], fun x => by simp [credit, paidBack]⟩

theorem step_attributed {w w' : World} (R : Reachable w) {op : Op} {rc : Receipt} (h : step w op = .ok (w', rc))
    (a : Addr) : Attributed w w' a ⟨w, op, rc, w'⟩ := by
  have W := R.winv
  have qv : ∀ {b p}, w.presales b = some p → p.quoteTokenVault = .quoteVault b :=
    fun hp => (W.core.sale _ _ hp).pinv.static.quoteVault
  have bv : ∀ {b p}, w.presales b = some p → p.baseTokenVault = .baseVault b :=
    fun hp => (W.core.sale _ _ hp).pinv.static.baseVault
  have e1 : ∀ b c : Addr, (Addr.quoteVault b = .quoteVault c) = (b = c) := fun b c => by simp
  have e2 : ∀ b c : Addr, (Addr.baseVault b = .baseVault c) = (b = c) := fun b c => by simp
  have e3 : ∀ b c : Addr, (Addr.quoteVault b = .baseVault c) = False := fun b c => by simp
  have e4 : ∀ b c : Addr, (Addr.baseVault b = .quoteVault c) = False := fun b c => by simp
  cases op with
  | ix tx i =>
    have hrec := ((C75_step_iff R tx i w' rc).1 h).2
    cases i
    case withdraw x =>
      obtain ⟨p, p', e, e', m, n, hp, _, _, _, _, _, rfl⟩ := hrec
      obtain ⟨t1, t2⟩ := step_took W h (by rintro _ _ ⟨⟩; rfl) a
      have t3 := step_supplied W h (a := a) (by rintro _ _ ⟨⟩)
      have P := pays_out m p.quoteMint p.quoteTokenVault x.ownerQuoteToken n
      rw [qv hp] at P
      constructor <;> simp only [qv hp, P.out, P.own, part, about, volume, P.all, ofSale, e1, e3, decide_eq_true_eq,
        reduceCtorEq, false_and, true_and, if_false]
      all_goals omega
    case claim x =>
      obtain ⟨p, p', e, e', m, n, hp, _, _, _, _, _, rfl⟩ := hrec
      obtain ⟨t1, t2⟩ := step_took W h (by rintro _ _ ⟨⟩; rfl) a
      have t3 := step_supplied W h (a := a) (by rintro _ _ ⟨⟩)
      have P := pays_any m p.baseMint p.baseTokenVault x.ownerBaseToken n
      rw [bv hp] at P
      constructor <;> simp only [bv hp, P.out, P.own, part, about, volume, P.all, ofSale, e2, e4, decide_eq_true_eq,
        reduceCtorEq, false_and, true_and, if_false]
      all_goals omega
    case refund x =>
      obtain ⟨p, p', m, n, hp, _, _, _, rfl⟩ := hrec
      obtain ⟨t1, t2⟩ := step_took W h (by rintro _ _ ⟨⟩; rfl) a
      have t3 := step_supplied W h (a := a) (by rintro _ _ ⟨⟩)
      have P := pays_any m p.quoteMint p.quoteTokenVault x.ownerQuoteToken n
      rw [qv hp] at P
      constructor <;> simp only [qv hp, P.out, P.own, part, about, volume, P.all, ofSale, e1, e3, decide_eq_true_eq,
        reduceCtorEq, false_and, true_and, if_false]
      all_goals omega
    case unsold x =>
      obtain ⟨p, m, n, hp, _, hn, hrc⟩ := hrec
      have t3 := step_supplied W h (a := a) (by rintro _ _ ⟨⟩)
      obtain ⟨p2, c, hd, k, tk, cpi, F⟩ := handleUnsold_iff.1 h
      rw [F.presale] at hp; cases hp
      obtain ⟨o1, o2⟩ := out_unsold (unsoldPerformed_false F.first)
      have P : Pays rc.cpis (.baseVault x.presale) n := by
        rw [hrc, ← bv F.presale]
        split
        · exact pays_burn _ _ _
        · exact pays_out _ _ _ _ _
      have t1 : tookQuote w' a = tookQuote w a := by
        unfold tookQuote
        rw [F.post]
        by_cases ha : a = x.presale
        · subst ha; simp only [upd_self, F.presale]; exact o1
        · simp only [upd_other _ _ ha]
      have t2 : tookBase w' a = tookBase w a + if x.presale = a then n else 0 := by
        unfold tookBase
        rw [F.post, hn]
        by_cases ha : a = x.presale
        · subst ha; simp only [upd_self, F.presale, if_true]; exact o2
        · simp only [upd_other _ _ ha, Ne.symm ha, if_false]; rfl
      constructor <;> simp only [P.out, P.own, part, about, e2, e4, if_false]
      all_goals omega
    case creatorWithdraw x =>
      obtain ⟨p, mint, vault, n, m, prog, hp, _, hcase, rfl⟩ := hrec
      have t3 := step_supplied W h (a := a) (by rintro _ _ ⟨⟩)
      obtain ⟨p2, c, hooks, rest, tk, cpi, m2, ex, F⟩ := handleCreatorWithdraw_iff.1 h
      rw [F.presale] at hp; cases hp
      obtain ⟨o1, o2⟩ := out_creatorWithdrawn (creatorWithdrawn_false F.first)
      have P := pays_out m mint vault x.ownerToken n
      have t1 : tookQuote w' a = tookQuote w a +
          if x.presale = a then (if p.presaleMinimumCap ≤ p.totalDeposit then raise p else 0) else 0 := by
        unfold tookQuote
        rw [F.post]
        by_cases ha : a = x.presale
        · subst ha; simp only [upd_self, F.presale, if_true]; exact o1
        · simp only [upd_other _ _ ha, Ne.symm ha, if_false]; rfl
      have t2 : tookBase w' a = tookBase w a +
          if x.presale = a then (if p.totalDeposit < p.presaleMinimumCap then p.presaleSupply else 0) else 0 := by
        unfold tookBase
        rw [F.post]
        by_cases ha : a = x.presale
        · subst ha; simp only [upd_self, F.presale, if_true]; exact o2
        · simp only [upd_other _ _ ha, Ne.symm ha, if_false]; rfl
      rcases hcase with ⟨hph, _, _, hv, hn⟩ | ⟨hph, _, _, hv, hn⟩
      · rw [hv, qv F.presale] at P
        have hmin := hph.2
        rw [if_pos hmin] at t1
        rw [if_neg (show ¬ p.totalDeposit < p.presaleMinimumCap by omega), ite_self] at t2
        rw [show min p.totalDeposit p.presaleMaximumCap = raise p from rfl] at hn
        rw [← hn] at t1
        constructor <;> simp only [hv, qv F.presale, P.out, P.own, part, about, e1, e3, if_false]
        all_goals omega
      · rw [hv, bv F.presale] at P
        have hmin := hph.2
        rw [if_neg (show ¬ p.presaleMinimumCap ≤ p.totalDeposit by omega), ite_self] at t1
        rw [if_pos hmin, ← hn] at t2
        constructor <;> simp only [hv, bv F.presale, P.out, P.own, part, about, e2, e4, if_false]
        all_goals omega
    case collectFee x =>
      obtain ⟨p, m, hp, _, rfl⟩ := hrec
      have t3 := step_supplied W h (a := a) (by rintro _ _ ⟨⟩)
      obtain ⟨p2, m2, fee, ex, F⟩ := handleCollectFee_iff.1 h
      rw [F.presale] at hp; cases hp
      obtain ⟨o1, o2⟩ := out_feeCollected (feeCollected_false F.progress.2)
      have hpost : w'.presales = upd w.presales x.presale (some p.setDepositFeeCollected) := by
        rcases F.out with ⟨_, hooks, rest, tk, cpi, _, _, g4, _⟩ | ⟨_, g4, _⟩ <;> rw [g4]
      have P := pays_any m p.quoteMint p.quoteTokenVault x.feeReceivingAccount (collectableFee p)
      rw [qv F.presale] at P
      have t1 : tookQuote w' a = tookQuote w a + if x.presale = a then collectableFee p else 0 := by
        unfold tookQuote
        rw [hpost]
        by_cases ha : a = x.presale
        · subst ha; simp only [upd_self, F.presale, if_true]; exact o1
        · simp only [upd_other _ _ ha, Ne.symm ha, if_false]; rfl
      have t2 : tookBase w' a = tookBase w a := by
        unfold tookBase
        rw [hpost]
        by_cases ha : a = x.presale
        · subst ha; simp only [upd_self, F.presale]; exact o2
        · simp only [upd_other _ _ ha]
      constructor <;> simp only [qv F.presale, P.out, P.own, part, about, e1, e3, if_false]
      all_goals omega
    case deposit x =>
      obtain ⟨p, p', e, e', m, gross, hp, _, _, _, _, hS, hrc⟩ := hrec
      obtain ⟨p2, m2, e2', d, inc, hooks, rest, tk, cpi, F⟩ := handleDeposit_iff.1 h
      obtain ⟨hsrc, _⟩ := F.vaultGain W.core
      have hpay := signed_isKey F.signed
      have s1 : ∀ v : Addr, v.isVault = true → (x.payerQuoteToken = v) = False := by
        intro v hv
        simp only [eq_iff_iff, iff_false]
        rintro rfl; rw [hv] at hsrc; cases hsrc
      have s2 : (x.payer = .presaleAuthority) = False := by
        simp only [eq_iff_iff, iff_false]
        intro hh; rw [hh] at hpay; obtain ⟨_, hk⟩ := hpay; cases hk
      obtain ⟨t1, t2⟩ := step_took W h (by rintro _ _ ⟨⟩; rfl) a
      have t3 := step_supplied W h (a := a) (by rintro _ _ ⟨⟩)
      subst hrc
      constructor <;> simp only [List.map_cons, List.map_nil, List.sum_cons, List.sum_nil, debit, credit, paidBack, part,
        about, volume, creditedBy, ofSale, qv hp, s2, s1 (.quoteVault a) rfl, s1 (.baseVault a) rfl, e1, e3,
        decide_eq_true_eq, reduceCtorEq, false_and, true_and, if_false, Nat.add_zero]
      all_goals omega
    case initPresale x =>
      obtain ⟨p', m, gross, hp', _, hS, hrc⟩ := hrec
      obtain ⟨bm, qm, p, rem, supply, inc, hooks, rest, tk, cpi, F⟩ := handleInitPresale_iff.1 h
      obtain ⟨s, q, m', dlg, T⟩ := transferTokens_iff.1 F.transfer
      have hsrc : x.payerPresaleToken.isVault = false := by
        refine user_src T ?_ (signed_isKey F.signed.2)
        intro y t hv hx
        simp only [upd_apply] at hx
        split at hx
        · cases hx; exact ⟨rfl, rfl⟩
        · split at hx
          · cases hx; exact ⟨rfl, rfl⟩
          · exact W.core.vaults y t hv hx
      have hpay := signed_isKey F.signed.2
      have s1 : ∀ v : Addr, v.isVault = true → (x.payerPresaleToken = v) = False := by
        intro v hv
        simp only [eq_iff_iff, iff_false]
        rintro rfl; rw [hv] at hsrc; cases hsrc
      have s2 : (x.payer = .presaleAuthority) = False := by
        simp only [eq_iff_iff, iff_false]
        intro hh; rw [hh] at hpay; obtain ⟨_, hk⟩ := hpay; cases hk
      obtain ⟨t1, t2⟩ := step_took W h (by rintro _ _ ⟨⟩; rfl) a
      have R' : Reachable w' := R.step h
      have hvv : p'.baseTokenVault = .baseVault x.presaleKey := (R'.winv.core.sale _ _ hp').pinv.static.baseVault
      have t3 : supplied w' a = supplied w a + if x.presaleKey = a then p'.presaleSupply else 0 := by
        by_cases ha : a = x.presaleKey
        · subst ha
          unfold supplied
          rw [F.fresh.1, if_pos rfl]
          rw [show w'.presales x.presaleKey = some p' from hp']
          simp
        · rw [if_neg (Ne.symm ha)]
          exact step_supplied W h (by rintro _ _ ⟨⟩; exact ha)
      rw [← hS.1] at t3
      subst hrc
      constructor <;> simp only [List.map_cons, List.map_nil, List.sum_cons, List.sum_nil, debit, credit, paidBack, part,
        about, hvv, s2, s1 (.quoteVault a) rfl, s1 (.baseVault a) rfl, e2, e4, if_false]
      all_goals omega
    case createEscrow x =>
      obtain ⟨_, _, rfl⟩ := hrec
      exact silent_attributed W h rfl (by rintro _ _ ⟨⟩; rfl) (by rintro _ _ ⟨⟩) a
    case createEscrowCreator x =>
      obtain ⟨_, _, rfl⟩ := hrec
      exact silent_attributed W h rfl (by rintro _ _ ⟨⟩; rfl) (by rintro _ _ ⟨⟩) a
    case createEscrowMerkle x =>
      obtain ⟨_, _, rfl⟩ := hrec
      exact silent_attributed W h rfl (by rintro _ _ ⟨⟩; rfl) (by rintro _ _ ⟨⟩) a
    case refresh x =>
      obtain ⟨_, _, rfl⟩ := hrec
      exact silent_attributed W h rfl (by rintro _ _ ⟨⟩; rfl) (by rintro _ _ ⟨⟩) a
    all_goals
      have hrc : rc.cpis = [] := by rw [show rc = _ from hrec]
      exact silent_attributed W h hrc (by rintro _ _ ⟨⟩; rfl) (by rintro _ _ ⟨⟩) a
  | _ =>
    refine silent_attributed W h ?_ (by rintro _ _ ⟨⟩) (by rintro _ _ ⟨⟩) a
    rw [env_receipt h trivial]
    rfl

/-- The books of the vaults of sale `a`, whether it exists yet or not. -/
theorem run_attributed {w0 : World} (G : Genesis w0) (ops : List Op) (a : Addr) :
    summed (debit (.quoteVault a)) (trace w0 ops) = tookQuote (run w0 ops) a +
      total .withdraw (ofSale a) (trace w0 ops) + total .refund (ofSale a) (trace w0 ops) ∧
    summed (debit (.baseVault a)) (trace w0 ops) = tookBase (run w0 ops) a +
      total .claim (ofSale a) (trace w0 ops) ∧
    summed (credit (.quoteVault a)) (trace w0 ops) = total .deposit (ofSale a) (trace w0 ops) +
      summed (paidBack (.quoteVault a)) (trace w0 ops) ∧
    summed (credit (.baseVault a)) (trace w0 ops) = supplied (run w0 ops) a +
      summed (paidBack (.baseVault a)) (trace w0 ops) := by
  induction ops using List.reverseRecOn with
  | nil =>
    unfold tookQuote tookBase supplied
    rw [show run w0 [] = w0 from rfl, G.presales a]
    exact ⟨rfl, rfl, rfl, rfl⟩
  | append_singleton ops op ih =>
    have R : Reachable (run w0 ops) := ⟨w0, ops, G, rfl⟩
    rw [trace_snoc, run_snoc]
    unfold attempt
    cases h : step (run w0 ops) op with
    | error e =>
      have : apply (run w0 ops) op = run w0 ops := by unfold apply; rw [h]
      rw [this, List.append_nil]
      exact ih
    | ok x =>
      obtain ⟨w', rc⟩ := x
      rw [apply_ok h]
      obtain ⟨a1, a2, a3, a4⟩ := step_attributed R h a
      simp only [summed_append, summed_one, total_append, total_one]
      simp only at a1 a2 a3 a4
      omega

/-- **C114, quote tokens.** From an empty deployment on: everything that ever left the quote vault of a sale was
withdrawn or refunded to a buyer or taken once by the creator, as raise or as fees; everything the token programs put
in was deposited by a buyer or paid out of some vault by this very program. So the balance is known to the last token. -/
theorem C114_quote {w0 : World} (G : Genesis w0) (ops : List Op) {a : Addr} {p : Presale}
    (hp : (run w0 ops).presales a = some p) :
    summed (debit (.quoteVault a)) (trace w0 ops) =
      total .withdraw (ofSale a) (trace w0 ops) + total .refund (ofSale a) (trace w0 ops) + takenQuote p ∧
    summed (credit (.quoteVault a)) (trace w0 ops) =
      total .deposit (ofSale a) (trace w0 ops) + summed (paidBack (.quoteVault a)) (trace w0 ops) ∧
    balance (run w0 ops) (.quoteVault a) + total .withdraw (ofSale a) (trace w0 ops) +
        total .refund (ofSale a) (trace w0 ops) + takenQuote p =
      total .deposit (ofSale a) (trace w0 ops) + summed (paidBack (.quoteVault a)) (trace w0 ops) +
        given (trace w0 ops) (.quoteVault a) := by
  obtain ⟨h1, _, h3, _⟩ := run_attributed G ops a
  have S := C114_statement w0 ops (v := .quoteVault a) rfl
  have hz : balance w0 (.quoteVault a) = 0 := by unfold balance; rw [G.vaults _ rfl]; rfl
  unfold tookQuote at h1
  rw [hp] at h1
  simp only at h1
  omega

/-- **C114, base tokens.** Likewise for the base vault: what left it was claimed by a buyer, or was unsold, or went
back to the creator of a failed sale; what came in is the supply, once, and what this program paid in. -/
theorem C114_base {w0 : World} (G : Genesis w0) (ops : List Op) {a : Addr} {p : Presale}
    (hp : (run w0 ops).presales a = some p) :
    summed (debit (.baseVault a)) (trace w0 ops) = total .claim (ofSale a) (trace w0 ops) + takenBase p ∧
    summed (credit (.baseVault a)) (trace w0 ops) = p.presaleSupply + summed (paidBack (.baseVault a)) (trace w0 ops) ∧
    balance (run w0 ops) (.baseVault a) + total .claim (ofSale a) (trace w0 ops) + takenBase p =
      p.presaleSupply + summed (paidBack (.baseVault a)) (trace w0 ops) + given (trace w0 ops) (.baseVault a) := by
  obtain ⟨_, h2, _, h4⟩ := run_attributed G ops a
  have S := C114_statement w0 ops (v := .baseVault a) rfl
  have hz : balance w0 (.baseVault a) = 0 := by unfold balance; rw [G.vaults _ rfl]; rfl
  unfold tookBase at h2
  unfold supplied at h4
  rw [hp] at h2 h4
  simp only at h2 h4
  omega

/-! ## The hypotheses are met -/

namespace Ex

/-- The history `fullOps`, after which somebody sends five tokens straight to the quote vault. -/
def bankOps : List Op := fullOps ++ [.donate (.quoteVault sale) 5]

example : (run genesis bankOps).presales sale ≠ none ∧ given (trace genesis bankOps) (.quoteVault sale) = 5 ∧
    [Spec.Kind.deposit, .withdraw, .claim, .refund].map (fun K => total K (ofSale sale) (trace genesis bankOps)) =
      [1532, 100, 9998, 407] ∧
    ((run genesis bankOps).presales sale).map takenQuote = some 1023 ∧
    [Addr.quoteVault sale, .baseVault sale].map (fun v => (balance (run genesis bankOps) v,
      summed (debit v) (trace genesis bankOps), summed (credit v) (trace genesis bankOps))) =
      [(7, 1530, 1532), (2, 9998, 10000)] := by decide +kernel

/-- The creator has the fees paid into the vault they come from. -/
def loopOps : List Op :=
  busyOps ++ [.ix (tx [creator]) (.collectFee { collectFeeAcc with feeReceivingAccount := .quoteVault sale })]

example : ((run genesis loopOps).presales sale).map takenQuote = some 23 ∧
    summed (paidBack (.quoteVault sale)) (trace genesis loopOps) = 23 ∧
    balance (run genesis loopOps) (.quoteVault sale) = balance (run genesis busyOps) (.quoteVault sale) := by
  decide +kernel

end Ex

end Verif
