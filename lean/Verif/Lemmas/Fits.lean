import Verif.Lemmas.Layout
import Verif.Lemmas.Admin
import Verif.Lemmas.Evolve
/-!
# Every stored number fits its machine type

Most ranges follow from the ledger invariant. `Fits` adds the rest: bytes and raw data taken over from
the instruction arguments, and the escrow counter.
-/

namespace Verif
open Spec

/-- Terms of a presale that are copied from bytes of the instruction. -/
structure FitsTerms (p : Presale) : Prop where
  mode : p.presaleMode < u8Bound
  whitelist : p.whitelistMode < u8Bound
  unsold : p.unsoldTokenAction < u8Bound
  raw0 : p.raw0 < u128Bound
  raw1 : p.raw1 < u128Bound
  raw2 : p.raw2 < u128Bound

structure Fits (w : World) : Prop where
  terms : ∀ a p, w.presales a = some p → FitsTerms p
  count : ∀ a p, w.presales a = some p → p.totalEscrow < u64Bound
  roots : ∀ a c, w.merkleRoots a = some c → isHash32 c.root = true ∧ c.version < u64Bound
  metas : ∀ a m, w.metadata a = some m → urlInRange m.serverUrl = true

theorem FitsTerms.congr {p p' : Presale} (h : terms p' = terms p) (F : FitsTerms p) : FitsTerms p' := by
  have e1 : p'.presaleMode = p.presaleMode := (congrArg Presale.presaleMode h :)
  have e2 : p'.whitelistMode = p.whitelistMode := (congrArg Presale.whitelistMode h :)
  have e3 : p'.unsoldTokenAction = p.unsoldTokenAction := (congrArg Presale.unsoldTokenAction h :)
  have e4 : p'.raw0 = p.raw0 := (congrArg Presale.raw0 h :)
  have e5 : p'.raw1 = p.raw1 := (congrArg Presale.raw1 h :)
  have e6 : p'.raw2 = p.raw2 := (congrArg Presale.raw2 h :)
  exact ⟨by rw [e1]; exact F.mode, by rw [e2]; exact F.whitelist, by rw [e3]; exact F.unsold,
    by rw [e4]; exact F.raw0, by rw [e5]; exact F.raw1, by rw [e6]; exact F.raw2⟩

theorem inRange_bytes {a : InitializePresaleArgs} (h : a.inRange = true) :
    a.presaleParams.presaleMode < u8Bound ∧ a.presaleParams.whitelistMode < u8Bound ∧
    a.presaleParams.unsoldTokenAction < u8Bound ∧
    a.presaleParams.disableEarlierPresaleEndOnceCapReached < u8Bound := by
  unfold InitializePresaleArgs.inRange at h
  simp only [Bool.and_eq_true, decide_eq_true_eq] at h
  exact ⟨by simp [h], by simp [h], by simp [h], by simp [h]⟩

theorem InitPresaleFacts.fits {w : World} {tx : Tx} {a : InitPresaleAcc} {w' : World} {rc : Receipt}
    {bm qm : MintInfo} {p : Presale} {remaining : List Addr} {supply included : Nat} {hooks : ParsedHooks}
    {rest : List Addr} {tk : Tokens} {cpi : Cpi} (W : WInv w)
    (F : InitPresaleFacts w tx a w' rc bm qm p remaining supply included hooks rest tk cpi) :
    FitsTerms p ∧ p.totalEscrow = 0 := by
  obtain ⟨k', _, _, _, hC⟩ := processCreate_ok F.create
  have hS := hC.shape rfl rfl
  have hsh := hS.shape
  have hB := inRange_bytes F.range.1
  have e1 : p.presaleMode = a.args.presaleParams.presaleMode := by rw [hsh]; rfl
  have e2 : p.whitelistMode = a.args.presaleParams.whitelistMode := by rw [hsh]; rfl
  have e3 : p.unsoldTokenAction = a.args.presaleParams.unsoldTokenAction := by rw [hsh]; rfl
  have e4 : p.raw2 = 0 := by rw [hsh]; rfl
  have e5 : p.totalEscrow = 0 := by rw [hsh]; rfl
  have hp : 0 < u128Bound ∧ u8Bound * 256 < u128Bound := by
    rw [u128_eq_sq, u64Bound_eq, u8Bound_eq]; norm_num
  have hu := hp.2
  have h8 := hB.2.2.2
  have hr : p.raw0 < u128Bound ∧ p.raw1 < u128Bound := by
    rcases hS.modeData with ⟨_, h0, h1, _⟩ | ⟨_, h0, h1, _⟩ | ⟨_, _, acc, x, _, hx, _, h0, h1⟩
    · rw [h0, h1]; exact ⟨hp.1, hp.1⟩
    · rw [h0, h1]; exact ⟨by omega, hp.1⟩
    · have hf := (W.aux.fixed acc x hx).2
      rw [h0, h1]
      refine ⟨hf.2.1, ?_⟩
      have h9 := hf.2.2
      rw [u8Bound_eq] at h8 hu
      omega
  exact ⟨⟨by rw [e1]; exact hB.1, by rw [e2]; exact hB.2.1, by rw [e3]; exact hB.2.2.1, hr.1, hr.2,
    by rw [e4]; exact hp.1⟩, e5⟩

/-- Opening an escrow is refused when the counter is full. -/
theorem opened_room {w w' : World} {tx : Tx} {i : Ix} {rc : Receipt} {a : Addr} (ho : i.opens a)
    (h : step w (.ix tx i) = .ok (w', rc)) {p' : Presale} (hp' : w'.presales a = some p') :
    p'.totalEscrow < u64Bound := by
  have key : ∀ {p q : Presale} {o : Addr} {idx : Nat} {c : Option Nat} {r : Registry},
      CreateEscrowFacts w p a o idx c w' rc r q → p'.totalEscrow < u64Bound := by
    intro p q o idx c r F
    have h1 : w'.presales a = some q := by rw [F.post]; exact upd_self _ _ _
    rw [h1] at hp'
    cases hp'
    obtain ⟨r', _, _, h2, h3⟩ := increaseEscrowCount_iff.1 F.update
    rw [h3]
    exact h2
  cases i <;> try exact absurd ho id
  · obtain ⟨p, r, q, _, F⟩ := handleCreateEscrow_iff.1 h
    have ha : _ = a := ho
    rw [ha] at F
    exact key F
  · obtain ⟨p, o, r, q, _, F⟩ := handleCreateEscrowCreator_iff.1 h
    have ha : _ = a := ho
    rw [ha] at F
    exact key F
  · obtain ⟨p, o, r, q, _, F⟩ := handleCreateEscrowMerkle_iff.1 h
    have ha : _ = a := ho
    rw [ha] at F
    exact key F

theorem count_endIf {h : Handler} {p p' : Presale} {t : Nat} (e : h.endIfMaxCapReached p t = .ok p') :
    p'.totalEscrow = p.totalEscrow := by
  rcases endIfMaxCapReached_iff.1 e with ⟨_, _, _, _, rfl⟩ | ⟨_, rfl⟩ <;> rfl

theorem Act.count {w : World} {a : Addr} {p p' : Presale} {tx : Tx} {i : Ix} {es' : AMap Addr Escrow}
    (A : Act w a p tx i p' es') : i.opens a ∨ p'.totalEscrow ≤ p.totalEscrow := by
  cases A with
  | opened by_ => exact Or.inl by_
  | deposit here escrow belongs signed facts =>
    right
    rw [count_endIf facts.finish]
    exact Nat.le_refl _
  | withdraw here escrow belongs owner signed facts => right; rw [facts.presale]; exact Nat.le_refl _
  | refreshed => right; exact Nat.le_refl _
  | claimed => right; exact Nat.le_refl _
  | refunded => right; exact Nat.le_refl _
  | closed => right; exact Nat.sub_le _ _
  | creatorWithdrew => right; exact Nat.le_refl _
  | collected => right; exact Nat.le_refl _
  | unsold => right; exact Nat.le_refl _

theorem Fits.step {w w' : World} {op : Op} {rc : Receipt} (W : WInv w) (F : Fits w)
    (h : step w op = .ok (w', rc)) : Fits w' := by
  have hP : (∀ a p, w'.presales a = some p → FitsTerms p) ∧
      ∀ a p, w'.presales a = some p → p.totalEscrow < u64Bound := by
    have h0 : 0 < u64Bound := by rw [u64Bound_eq]; norm_num
    cases step_effect W h with
    | quiet presales escrows clock => rw [presales]; exact ⟨F.terms, F.count⟩
    | @create tx x p op_ fresh doc presales escrows clock =>
      subst op_
      obtain ⟨bm, qm, p1, rem, supply, inc, hooks, rest, tk, cpi, G⟩ := handleInitPresale_iff.1 h
      have hf := G.fits W
      have e1 : w'.presales = upd w.presales x.presaleKey (some p1) := by rw [G.post]
      rw [e1]
      constructor
      · intro a q hq
        rcases upd_cases hq with ⟨_, e⟩ | e
        · cases e; exact hf.1
        · exact F.terms a q e
      · intro a q hq
        rcases upd_cases hq with ⟨_, e⟩ | e
        · cases e; rw [hf.2]; exact h0
        · exact F.count a q e
    | @act tx i a p p' es' op_ presale is presales escrows clock =>
      subst op_
      rw [presales]
      constructor
      · intro b q hq
        rcases upd_cases hq with ⟨_, e⟩ | e
        · cases e; exact (F.terms a p presale).congr is.terms_eq
        · exact F.terms b q e
      · intro b q hq
        rcases upd_cases hq with ⟨_, e⟩ | e
        · cases e
          rcases is.count with ho | hle
          · exact opened_room ho h (by rw [presales]; exact upd_self _ _ _)
          · have := F.count a p presale
            omega
        · exact F.count b q e
  refine ⟨hP.1, hP.2, ?_, ?_⟩
  · intro a c hc
    cases step_admin h with
    | none roots ops metas fixed env clock => rw [roots] at hc; exact F.roots a c hc
    | fixedNew is facts => rw [facts.post] at hc; exact F.roots a c hc
    | fixedClose is facts => rw [facts.post] at hc; exact F.roots a c hc
    | rootNew is facts =>
      rw [facts.post] at hc
      rcases upd_cases hc with ⟨_, e⟩ | e
      · cases e; exact facts.range
      · exact F.roots a c e
    | rootClose is facts =>
      rw [facts.post] at hc
      rcases upd_cases hc with ⟨_, e⟩ | e
      · cases e
      · exact F.roots a c e
    | operatorNew is facts => rw [facts.post] at hc; exact F.roots a c hc
    | operatorRevoke is facts => rw [facts.post] at hc; exact F.roots a c hc
    | metaNew is facts => rw [facts.post] at hc; exact F.roots a c hc
    | metaClose is facts => rw [facts.post] at hc; exact F.roots a c hc
  · intro a c hc
    cases step_admin h with
    | none roots ops metas fixed env clock => rw [metas] at hc; exact F.metas a c hc
    | fixedNew is facts => rw [facts.post] at hc; exact F.metas a c hc
    | fixedClose is facts => rw [facts.post] at hc; exact F.metas a c hc
    | rootNew is facts => rw [facts.post] at hc; exact F.metas a c hc
    | rootClose is facts => rw [facts.post] at hc; exact F.metas a c hc
    | operatorNew is facts => rw [facts.post] at hc; exact F.metas a c hc
    | operatorRevoke is facts => rw [facts.post] at hc; exact F.metas a c hc
    | metaNew is facts =>
      rw [facts.post] at hc
      rcases upd_cases hc with ⟨_, e⟩ | e
      · cases e; exact facts.range
      · exact F.metas a c e
    | metaClose is facts =>
      rw [facts.post] at hc
      rcases upd_cases hc with ⟨_, e⟩ | e
      · cases e
      · exact F.metas a c e

theorem Genesis.fits {w : World} (G : Genesis w) : Fits w where
  terms a p h := by rw [G.presales] at h; cases h
  count a p h := by rw [G.presales] at h; cases h
  roots a p h := by rw [G.merkleRoots] at h; cases h
  metas a p h := by rw [G.metadata] at h; cases h

theorem Reachable.fits {w : World} (R : Reachable w) : Fits w := by
  obtain ⟨w0, ops, G, rfl⟩ := R
  induction ops using List.reverseRecOn with
  | nil => exact G.fits
  | append_singleton ops op ih =>
    have R' : Reachable (Verif.run w0 ops) := ⟨w0, ops, G, rfl⟩
    rw [run_snoc]
    rcases apply_cases (Verif.run w0 ops) op with e | ⟨rc, hs⟩
    · rw [e]; exact ih
    · exact ih.step R'.winv hs

end Verif
