import Verif.SpecEntry
import Verif.Lemmas.Frame
import Verif.Props.Data
import Verif.Props.Lamports
/-!
# C67: calls as account lists and bytes
-/

namespace Verif
open Spec (metas declared extra usesExtra Covers GoodFor own programKey)

/-- An account has the flags a field demands. -/
def Field.ok (f : Field) (m : Meta) : Prop :=
  (f.signer = true → m.signer = true) ∧ (f.writable = true → m.writable = true)

/-- Flags of an account in a client's list. -/
def Meta.field (m : Meta) : Field := ⟨m.signer, m.writable⟩

theorem takeAccounts_iff {fs : List Field} {ms : List Meta} {as : List Addr} {rest : List Meta} :
    takeAccounts fs ms = .ok (as, rest) ↔
      ∃ front, ms = front ++ rest ∧ front.map Meta.key = as ∧ List.Forall₂ Field.ok fs front := by
  induction fs generalizing ms as with
  | nil =>
    simp only [takeAccounts, ok_eq_ok, Prod.mk.injEq, List.forall₂_nil_left_iff]
    constructor
    · rintro ⟨rfl, rfl⟩; exact ⟨[], rfl, rfl, rfl⟩
    · rintro ⟨front, rfl, rfl, rfl⟩; exact ⟨rfl, rfl⟩
  | cons f fs ih =>
    cases ms with
    | nil =>
      simp only [takeAccounts]
      constructor
      · intro h; cases h
      · rintro ⟨front, h, -, h2⟩
        obtain ⟨rfl, rfl⟩ := List.nil_eq_append_iff.1 h
        cases h2
    | cons m ms =>
      simp only [takeAccounts, bind_eq_ok, require_eq_ok, Prod.exists, pure_eq_ok, Prod.mk.injEq, exists_const]
      constructor
      · rintro ⟨h1, h2, as', rest', h3, rfl, rfl⟩
        obtain ⟨front, rfl, rfl, h4⟩ := ih.1 h3
        exact ⟨m :: front, rfl, rfl, .cons ⟨h1, h2⟩ h4⟩
      · rintro ⟨front, h, h1, h2⟩
        cases h2 with
        | @cons _ m' _ front' g1 g2 =>
          cases h
          exact ⟨g1.1, g1.2, front'.map Meta.key, rest, ih.2 ⟨front', rfl, rfl, g2⟩, h1, rfl⟩

theorem covers_iff {want got : List Meta} :
    List.Forall₂ Covers want got ↔
      want.map Meta.key = got.map Meta.key ∧ List.Forall₂ Field.ok (want.map Meta.field) got := by
  induction want generalizing got with
  | nil => cases got <;> simp
  | cons x xs ih =>
    cases got with
    | nil => simp
    | cons y ys =>
      simp only [List.forall₂_cons, List.map_cons, List.cons.injEq, ih, Covers, Field.ok, Meta.field]
      constructor
      · rintro ⟨⟨h1, h2, h3⟩, h4, h5⟩; exact ⟨⟨h1.symm, h4⟩, ⟨h2, h3⟩, h5⟩
      · rintro ⟨⟨h1, h4⟩, ⟨h2, h3⟩, h5⟩; exact ⟨⟨h1.symm, h2, h3⟩, h4, h5⟩

theorem tokenProgram_iff {P : ProgIds} {a : Addr} {t : TokenProgram} :
    P.tokenProgram a = .ok t ↔ programKey P t = a := by
  unfold ProgIds.tokenProgram
  have hd := P.distinct
  by_cases h1 : a = P.token
  · rw [if_pos h1]
    cases t <;> simp [programKey, h1, hd.symm]
  · by_cases h2 : a = P.token2022
    · rw [if_neg h1, if_pos h2]
      cases t <;> simp [programKey, h2, hd]
    · rw [if_neg h1, if_neg h2]
      cases t
      · simp only [programKey, reduceCtorEq, false_iff]; exact fun e => h1 e.symm
      · simp only [programKey, reduceCtorEq, false_iff]; exact fun e => h2 e.symm

theorem covers_reads {l : List Addr} {back : List Meta} :
    List.Forall₂ Covers (l.map Spec.r) back ↔ back.map Meta.key = l := by
  induction l generalizing back with
  | nil => cases back <;> simp
  | cons x xs ih =>
    cases back with
    | nil => simp
    | cons y ys => simp [Covers, ih, Spec.r]

theorem covers_creator {l : List Addr} {back : List Meta} :
    List.Forall₂ Covers ((l.take 1).map Spec.wr ++ (l.drop 1).map Spec.r) back ↔
      back.map Meta.key = l ∧ ∀ m ∈ back.take 1, m.writable = true := by
  cases l with
  | nil => cases back <;> simp
  | cons x xs =>
    cases back with
    | nil => simp
    | cons y ys =>
      have := covers_reads (l := xs) (back := ys)
      simp only [List.take_succ_cons, List.take_zero, List.map_cons, List.map_nil, List.drop_succ_cons, List.drop_zero,
        List.cons_append, List.nil_append, List.forall₂_cons, this, Covers, Spec.wr, List.cons.injEq,
        List.mem_cons, List.not_mem_nil, or_false, forall_eq]
      constructor
      · rintro ⟨⟨h1, -, h2⟩, h3⟩; exact ⟨⟨h1, h3⟩, h2 trivial⟩
      · rintro ⟨⟨h1, h3⟩, h2⟩; exact ⟨⟨h1, by simp, fun _ => h2⟩, h3⟩

theorem own_fields (P : ProgIds) (i : Ix) : (own P i).map Meta.field = contextFields i.call.1 := by
  cases i <;> rfl

/-- What the binding code accepts, for one instruction. -/
def Built (P : ProgIds) (n : IxName) (x : n.Args) (as : List Addr) (rest : List Meta) (i : Ix) : Prop :=
  i.call = ⟨n, x⟩ ∧ (own P i).map Meta.key = as ∧ (usesExtra i = true → List.Forall₂ Covers (extra i) rest)

theorem tokenProgram_key (P : ProgIds) (t : TokenProgram) : P.tokenProgram (programKey P t) = .ok t :=
  tokenProgram_iff.2 rfl

theorem buildIx_complete (P : ProgIds) (i : Ix) (rest : List Meta)
    (h : usesExtra i = true → List.Forall₂ Covers (extra i) rest) :
    buildIx P i.call.1 i.call.2 ((own P i).map Meta.key) rest = .ok i := by
  cases i with
  | initPresale a =>
    replace h := covers_reads.1 (h rfl)
    simp [buildIx, Ix.call, own, Spec.r, Spec.s, Spec.wr, Spec.sw, InitPresaleAcc.presaleKey, require,
      tokenProgram_key, h, bind, Except.bind, pure, Except.pure]
  | creatorWithdraw a =>
    obtain ⟨h, h2⟩ := covers_creator.1 (h rfl)
    simp only [buildIx, Ix.call, own, Spec.r, Spec.s, Spec.wr, Spec.sw, List.map_cons, List.map_nil, bind_eq_ok,
      require_eq_ok, tokenProgram_key, h, ok_eq_ok, pure_eq_ok, exists_const, true_and, and_true, and_self]
    exact ⟨h2, _, rfl, rfl⟩
  | deposit a => replace h := covers_reads.1 (h rfl)
                 simp [buildIx, Ix.call, own, Spec.r, Spec.s, Spec.wr, tokenProgram_key, h, bind, Except.bind, pure, Except.pure]
  | withdraw a => replace h := covers_reads.1 (h rfl)
                  simp [buildIx, Ix.call, own, Spec.r, Spec.s, Spec.wr, require, tokenProgram_key, h, bind, Except.bind, pure, Except.pure]
  | claim a => replace h := covers_reads.1 (h rfl)
               simp [buildIx, Ix.call, own, Spec.r, Spec.s, Spec.wr, require, tokenProgram_key, h, bind, Except.bind, pure, Except.pure]
  | refund a => replace h := covers_reads.1 (h rfl)
                simp [buildIx, Ix.call, own, Spec.r, Spec.s, Spec.wr, require, tokenProgram_key, h, bind, Except.bind, pure, Except.pure]
  | unsold a => replace h := covers_reads.1 (h rfl)
                simp [buildIx, Ix.call, own, Spec.r, Spec.wr, require, tokenProgram_key, h, bind, Except.bind, pure, Except.pure]
  | collectFee a => replace h := covers_reads.1 (h rfl)
                    simp [buildIx, Ix.call, own, Spec.r, Spec.s, Spec.wr, require, tokenProgram_key, h, bind, Except.bind, pure, Except.pure]
  | _ =>
    simp [buildIx, Ix.call, own, Spec.r, Spec.s, Spec.wr, Spec.sw, require, DEFAULT_PERMISSIONLESS_REGISTRY_INDEX, bind, Except.bind, pure, Except.pure]

theorem buildIx_sound (P : ProgIds) {n : IxName} {x : n.Args} {as : List Addr} {rest : List Meta} {i : Ix}
    (h : buildIx P n x as rest = .ok i) : Built P n x as rest i := by
  unfold buildIx at h
  split at h
  all_goals
    simp only [bind_eq_ok, require_eq_ok, ok_eq_ok, pure_eq_ok, exists_const, tokenProgram_iff, reduceCtorEq] at h
  case h_3 =>
    obtain ⟨⟨rfl, rfl, rfl, rfl, rfl⟩, bp, rfl, qp, rfl, rfl⟩ := h
    exact ⟨rfl, rfl, fun _ => covers_reads.2 rfl⟩
  case h_17 =>
    obtain ⟨⟨rfl, rfl⟩, h1, tp, rfl, rfl⟩ := h
    exact ⟨rfl, rfl, fun _ => covers_creator.2 ⟨rfl, h1⟩⟩
  all_goals first
    | (obtain ⟨⟨rfl, rfl⟩, tp, rfl, rfl⟩ := h; exact ⟨rfl, rfl, fun _ => covers_reads.2 rfl⟩)
    | (obtain ⟨⟨rfl, rfl⟩, rfl⟩ := h; exact ⟨rfl, rfl, fun e => by simp [usesExtra] at e⟩)
    | (obtain ⟨tp, rfl, rfl⟩ := h; exact ⟨rfl, rfl, fun _ => covers_reads.2 rfl⟩)
    | (subst h; exact ⟨rfl, rfl, fun e => by simp [usesExtra] at e⟩)


/-- **C67.** The program accepts an account list for a call exactly when it is the one in the interface description, in
order, each account with at least the declared privileges; then every account ends up in the field meant for it. -/
theorem C67_binds (P : ProgIds) (c : Call) (accounts : List Meta) (i : Ix) :
    bindAccounts P c accounts = .ok i ↔ i.call = c ∧ GoodFor P i accounts := by
  simp only [bindAccounts, bind_eq_ok, require_eq_ok, Prod.exists, exists_const, takeAccounts_iff]
  constructor
  · rintro ⟨as, rest, ⟨f1, rfl, h1, h2⟩, ev, rest', ⟨f2, rfl, h3, h4⟩, h5, h6⟩
    obtain ⟨b1, b2, b3⟩ := buildIx_sound P h6
    replace b1 : i.call = c := b1
    subst b1
    refine ⟨rfl, f1 ++ f2, rest', by rw [List.append_assoc], ?_, b3⟩
    rw [covers_iff, declared, List.map_append, List.map_append, List.map_append]
    refine ⟨?_, ?_⟩
    · rw [b2, ← h1, h3, h5]; rfl
    · rw [own_fields]; exact List.rel_append h2 h4
  · rintro ⟨rfl, front, back, rfl, h1, h2⟩
    rw [covers_iff, declared, List.map_append, List.map_append, own_fields] at h1
    obtain ⟨hk, hf⟩ := h1
    obtain ⟨f1, f2, h3, h4, rfl⟩ : ∃ f1 f2, List.Forall₂ Field.ok (contextFields i.call.1) f1 ∧
        List.Forall₂ Field.ok [Field.ro, Field.ro] f2 ∧ front = f1 ++ f2 := by
      refine ⟨front.take (contextFields i.call.1).length, front.drop (contextFields i.call.1).length, ?_, ?_,
        (List.take_append_drop _ _).symm⟩
      · have := List.forall₂_take (contextFields i.call.1).length hf
        rwa [List.take_left] at this
      · have := List.forall₂_drop (contextFields i.call.1).length hf
        rwa [List.drop_left] at this
    rw [List.map_append] at hk
    have hlen : ((own P i).map Meta.key).length = (f1.map Meta.key).length := by
      have h := h3.length_eq
      rw [← own_fields P] at h
      simpa using h
    obtain ⟨k1, k2⟩ := List.append_inj hk hlen
    refine ⟨f1.map Meta.key, f2 ++ back, ⟨f1, List.append_assoc .., rfl, h3⟩, f2.map Meta.key, back,
      ⟨f2, rfl, rfl, h4⟩, k2.symm, ?_⟩
    rw [← k1]
    exact buildIx_complete P i back h2


theorem execIx_tx {w : World} {tx tx' : Tx} {i : Ix} (P : ProgIds) (ha : tx'.accept = tx.accept)
    (hs : ∀ m ∈ own P i, m.signer = true → tx'.signed m.key = tx.signed m.key) :
    execIx w tx' i = execIx w tx i := by
  cases i <;>
    simp only [own, Spec.r, Spec.s, Spec.wr, Spec.sw, List.mem_cons, List.not_mem_nil, or_false, forall_eq_or_imp,
      forall_eq, Bool.false_eq_true, false_imp_iff, true_and, and_true, forall_true_left, forall_const] at hs <;>
    simp only [execIx, handleInitFixedArgs, handleCloseFixedArgs, handleInitPresale, handleCreateMerkle,
      handleCloseMerkle, handleCreateEscrow, handleCreateEscrowCreator, handleCreateEscrowMerkle,
      handleCreateOperator, handleRevokeOperator, handleDeposit, handleWithdraw, handleClaim, handleRefund,
      handleUnsold, performUnsold, handleCloseEscrow, handleCreatorWithdraw, handleRefresh, handleCreateMetadata,
      handleCloseMetadata, handleCollectFee, hs, ha]

/-- **C67.** An instruction succeeds only if all accounts declared as signers signed. -/
theorem C67_signers (P : ProgIds) {w w' : World} {tx : Tx} {i : Ix} {rc : Receipt}
    (h : execIx w tx i = .ok (w', rc)) : ∀ m ∈ declared P i, m.signer = true → tx.signed m.key = true := by
  have key : ∀ m ∈ own P i, m.signer = true → tx.signed m.key = true := by
    cases i <;>
      simp only [own, Spec.r, Spec.s, Spec.wr, Spec.sw, List.mem_cons, List.not_mem_nil, or_false, forall_eq_or_imp,
        forall_eq, Bool.false_eq_true, false_imp_iff, true_and, and_true, forall_true_left, forall_const]
    case initFixedArgs x => exact (handleInitFixedArgs_iff.1 h).signed
    case closeFixedArgs x => obtain ⟨_, F⟩ := handleCloseFixedArgs_iff.1 h; exact F.signed
    case initPresale x =>
      obtain ⟨_, _, _, _, _, _, _, _, _, _, F⟩ := handleInitPresale_iff.1 h
      exact F.signed
    case createMerkle x => obtain ⟨_, F⟩ := handleCreateMerkle_iff.1 h; exact F.signed
    case closeMerkle x => obtain ⟨_, _, F⟩ := handleCloseMerkle_iff.1 h; exact F.signed
    case createEscrow x => obtain ⟨_, _, _, F, _⟩ := handleCreateEscrow_iff.1 h; exact F.signed
    case createEscrowCreator x =>
      obtain ⟨_, _, _, _, F, _⟩ := handleCreateEscrowCreator_iff.1 h; exact F.signed
    case createEscrowMerkle x => obtain ⟨_, _, _, _, F, _⟩ := handleCreateEscrowMerkle_iff.1 h; exact F.signed
    case createOperator x => exact (handleCreateOperator_iff.1 h).signed
    case revokeOperator x => obtain ⟨_, F⟩ := handleRevokeOperator_iff.1 h; exact F.signed
    case deposit x => obtain ⟨_, _, _, _, _, _, _, _, _, F⟩ := handleDeposit_iff.1 h; exact F.signed
    case withdraw x => obtain ⟨_, _, _, _, _, _, _, _, _, _, _, F⟩ := handleWithdraw_iff.1 h; exact F.signed
    case claim x => obtain ⟨_, _, _, _, _, _, F⟩ := handleClaim_iff.1 h; exact F.signed
    case refund x => obtain ⟨_, _, _, _, _, _, _, _, F⟩ := handleRefund_iff.1 h; exact F.signed
    case closeEscrow x => obtain ⟨_, _, _, F⟩ := handleCloseEscrow_iff.1 h; exact F.signed
    case creatorWithdraw x => obtain ⟨_, _, _, _, _, _, _, _, F⟩ := handleCreatorWithdraw_iff.1 h; exact F.signed
    case createMetadata x => obtain ⟨_, F⟩ := handleCreateMetadata_iff.1 h; exact F.signed
    case closeMetadata x => obtain ⟨_, _, F⟩ := handleCloseMetadata_iff.1 h; exact F.signed
    case collectFee x => obtain ⟨_, _, _, _, F⟩ := handleCollectFee_iff.1 h; exact F.signed
  intro m hm hsig
  rw [declared, List.mem_append] at hm
  rcases hm with hm | hm
  · exact key m hm hsig
  · simp only [List.mem_cons, List.not_mem_nil, or_false] at hm
    rcases hm with rfl | rfl <;> cases hsig

/-- The entry point, in terms of instructions. -/
theorem execRaw_iff {P : ProgIds} {D : Discs IxName} {K : Keys} {w w' : World} {acc : Bool} {r : Raw} {rc : Receipt} :
    execRaw P D K w acc r = .ok (w', rc) ↔ ∃ i, decodeCall D K r.data = some i.call ∧ GoodFor P i r.accounts ∧
      execIx w (r.tx acc) i = .ok (w', rc) := by
  simp only [execRaw, bind_eq_ok, C67_binds]
  constructor
  · rintro ⟨c, h1, i, ⟨rfl, h2⟩, h3⟩
    refine ⟨i, ?_, h2, h3⟩
    unfold readCall at h1
    split at h1
    · next c hc => cases h1; exact hc
    · cases h1
  · rintro ⟨i, h1, h2, h3⟩
    exact ⟨i.call, by rw [readCall, h1], i, ⟨rfl, h2⟩, h3⟩

theorem covers_refl (l : List Meta) : List.Forall₂ Covers l l :=
  List.forall₂_same.2 fun _ _ => ⟨rfl, id, id⟩

/-- The call a client makes for an instruction: exactly the declared privileges, no other signature. -/
def clientCall (P : ProgIds) (D : Discs IxName) (K : Keys) (i : Ix) : Raw :=
  { accounts := metas P i, data := encodeCall D K i.call }

/-- **C67.** Whatever an instruction can do it can do when called as the interface description says: the declared
privileges and signatures suffice. -/
theorem C67_sufficient (P : ProgIds) (D : Discs IxName) (K : Keys) {w w' : World} {tx : Tx} {i : Ix} {rc : Receipt}
    (hK : ∀ a, i = .initFixedArgs a → K.known a.presale) (h : execIx w tx i = .ok (w', rc)) :
    execRaw P D K w tx.accept (clientCall P D K i) = .ok (w', rc) := by
  rw [execRaw_iff]
  refine ⟨i, ?_, ⟨declared P i, extra i, rfl, covers_refl _, fun _ => covers_refl _⟩, ?_⟩
  · have := C66_expressible D K hK h []
    rwa [List.append_nil] at this
  · rw [← h]
    refine execIx_tx P rfl fun m hm hsig => ?_
    have hd : m ∈ declared P i := List.mem_append_left _ hm
    have h1 := C67_signers P h m hd hsig
    rw [h1, Tx.signed, Bool.and_eq_true, decide_eq_true_eq]
    refine ⟨?_, (Bool.and_eq_true_iff.1 h1).2⟩
    exact List.mem_map.2 ⟨m, List.mem_filter.2 ⟨List.mem_append_left _ hd, hsig⟩, rfl⟩

/-- **C67.** Nothing more is possible through the entry point than through the instructions of the model. -/
theorem C67_refines {P : ProgIds} {D : Discs IxName} {K : Keys} {w w' : World} (R : Reachable w) {acc : Bool} {r : Raw}
    {rc : Receipt} (h : execRaw P D K w acc r = .ok (w', rc)) : Reachable w' := by
  obtain ⟨i, -, -, hi⟩ := execRaw_iff.1 h
  exact R.step (op := .ix (r.tx acc) i) hi


/-! ## Reads and writes -/

open Spec (Untouched AgreeOn)

theorem good_writable {P : ProgIds} {i : Ix} {accounts : List Meta} (G : GoodFor P i accounts) {m : Meta}
    (hm : m ∈ metas P i) (hw : m.writable = true) : ∃ m' ∈ accounts, m'.key = m.key ∧ m'.writable = true := by
  obtain ⟨front, back, rfl, h1, h2⟩ := G
  have key : ∀ {l l' : List Meta}, List.Forall₂ Covers l l' → m ∈ l → ∃ m' ∈ l', m'.key = m.key ∧ m'.writable = true := by
    intro l l' h hl
    induction h with
    | nil => cases hl
    | @cons x y _ _ hc _ ih =>
      rcases List.mem_cons.1 hl with rfl | hl
      · exact ⟨y, List.mem_cons_self, hc.1, hc.2.2 hw⟩
      · obtain ⟨m', a, b⟩ := ih hl
        exact ⟨m', List.mem_cons_of_mem _ a, b⟩
  rw [metas, List.mem_append] at hm
  rcases hm with hm | hm
  · obtain ⟨m', a, b⟩ := key h1 hm
    exact ⟨m', List.mem_append_left _ a, b⟩
  · have hu : usesExtra i = true := by
      cases i <;> first | rfl | exact absurd hm (by simp [extra])
    obtain ⟨m', a, b⟩ := key (h2 hu) hm
    exact ⟨m', List.mem_append_right _ a, b⟩

theorem good_listed {P : ProgIds} {i : Ix} {accounts : List Meta} (G : GoodFor P i accounts) {a : Addr}
    (ha : a ∈ (metas P i).map Meta.key) : a ∈ accounts.map Meta.key := by
  obtain ⟨front, back, rfl, h1, h2⟩ := G
  rw [metas, List.map_append, List.mem_append] at ha
  rw [List.map_append, List.mem_append]
  rcases ha with ha | ha
  · exact .inl ((covers_iff.1 h1).1 ▸ ha)
  · have hu : usesExtra i = true := by
      cases i <;> first | rfl | exact absurd ha (by simp [extra])
    exact .inr ((covers_iff.1 (h2 hu)).1 ▸ ha)

/-- **C67.** A call changes nothing stored under an address it does not list as writable; in particular no call is
turned down by the runtime for a write to a read-only account. -/
theorem C67_writes {P : ProgIds} {D : Discs IxName} {K : Keys} {w w' : World} {acc : Bool} {r : Raw} {rc : Receipt}
    (h : execRaw P D K w acc r = .ok (w', rc)) :
    w'.env = w.env ∧ w'.clock = w.clock ∧
      ∀ a, (∀ m ∈ r.accounts, m.key = a → m.writable = false) → Untouched w w' a := by
  obtain ⟨i, -, G, hi⟩ := execRaw_iff.1 h
  obtain ⟨h1, h2, h3⟩ := execIx_writes P hi
  refine ⟨h1, h2, fun a ha => h3 a ?_⟩
  rintro m hm hw rfl
  obtain ⟨m', a1, a2, a3⟩ := good_writable G hm hw
  rw [ha m' a1 a2] at a3
  cases a3

/-- The outcome of a call depends only on the accounts it lists. -/
theorem execRaw_reads (P : ProgIds) (D : Discs IxName) (K : Keys) {w w' : World}
    (hn : (AMap.keys w.escrows).Nodup) (hn' : (AMap.keys w'.escrows).Nodup)
    (acc : Bool) (r : Raw) (A : AgreeOn (r.accounts.map Meta.key) w w') :
    match execRaw P D K w acc r, execRaw P D K w' acc r with
    | .ok (v, rc), .ok (v', rc') => rc = rc' ∧ AgreeOn (r.accounts.map Meta.key) v v'
    | .error e, .error e' => e = e'
    | _, _ => False := by
  unfold execRaw
  cases h1 : readCall D K r.data with
  | error e => exact rfl
  | ok c =>
    rw [ok_bind, ok_bind]
    cases h2 : bindAccounts P c r.accounts with
    | error e => exact rfl
    | ok i =>
      rw [ok_bind, ok_bind]
      have G := ((C67_binds P c r.accounts i).1 h2).2
      have B : AgreeOn ((metas P i).map Meta.key) w w' := ⟨A.env, A.clock, fun a ha => A.same a (good_listed G ha)⟩
      have S := execIx_reads (tx := r.tx acc) hn hn' B
      revert S
      cases execIx w (r.tx acc) i <;> cases execIx w' (r.tx acc) i <;> simp only [Same, Outcome] <;> intro S
      · exact S
      · exact S
      · exact S
      · exact ⟨S.1, S.2.1, S.2.2.1, fun a ha => S.2.2.2 a (A.same a ha)⟩

/-- **C68.** The outcome of a call, including the error, depends only on the accounts it lists, the clock and the
environment. -/
theorem C68_reads (P : ProgIds) (D : Discs IxName) (K : Keys) {w w' : World} (R : Reachable w) (R' : Reachable w')
    (acc : Bool) (r : Raw) (A : AgreeOn (r.accounts.map Meta.key) w w') :
    match execRaw P D K w acc r, execRaw P D K w' acc r with
    | .ok (v, rc), .ok (v', rc') => rc = rc' ∧ AgreeOn (r.accounts.map Meta.key) v v'
    | .error e, .error e' => e = e'
    | _, _ => False :=
  execRaw_reads P D K R.winv.core.nodup R'.winv.core.nodup acc r A

/-- Two calls do not conflict: neither writes an account the other lists. -/
def Apart (r s : Raw) : Prop :=
  (∀ m ∈ r.accounts, m.writable = true → m.key ∉ s.accounts.map Meta.key) ∧
    (∀ m ∈ s.accounts, m.writable = true → m.key ∉ r.accounts.map Meta.key)

theorem untouched_apart {P : ProgIds} {D : Discs IxName} {K : Keys} {w w' : World} {acc : Bool} {r s : Raw}
    {rc : Receipt} (h : execRaw P D K w acc r = .ok (w', rc))
    (hs : ∀ m ∈ r.accounts, m.writable = true → m.key ∉ s.accounts.map Meta.key) :
    AgreeOn (s.accounts.map Meta.key) w w' := by
  obtain ⟨h1, h2, h3⟩ := C67_writes h
  refine ⟨h1, h2, fun a ha => h3 a ?_⟩
  rintro m hm rfl
  by_contra hw
  exact hs m hm (by simpa using hw) ha

theorem Spec.AgreeOn.symm {keys : List Addr} {w w' : World} (h : AgreeOn keys w w') : AgreeOn keys w' w :=
  ⟨h.env.symm, h.clock.symm, fun a ha => (h.same a ha).symm⟩

theorem reads_ok {P : ProgIds} {D : Discs IxName} {K : Keys} {w w' v : World} (R : Reachable w) (R' : Reachable w')
    {acc : Bool} {r : Raw} {rc : Receipt} (A : AgreeOn (r.accounts.map Meta.key) w w')
    (h : execRaw P D K w acc r = .ok (v, rc)) :
    ∃ v', execRaw P D K w' acc r = .ok (v', rc) ∧ AgreeOn (r.accounts.map Meta.key) v v' := by
  have := C68_reads P D K R R' acc r A
  rw [h] at this
  cases h' : execRaw P D K w' acc r with
  | error e => rw [h'] at this; exact this.elim
  | ok x =>
    obtain ⟨v', rc'⟩ := x
    rw [h'] at this
    exact ⟨v', by rw [this.1], this.2⟩

/-- **C68.** Calls that do not conflict commute: in either order they succeed with the same receipts and leave the same
under every address. The order in which the runtime schedules them is irrelevant. -/
theorem C68_commute {P : ProgIds} {D : Discs IxName} {K : Keys} {w w1 w12 : World} (R : Reachable w)
    {acc acc' : Bool} {r s : Raw} {rc rc' : Receipt} (hap : Apart r s)
    (h1 : execRaw P D K w acc r = .ok (w1, rc)) (h2 : execRaw P D K w1 acc' s = .ok (w12, rc')) :
    ∃ w2 w21, execRaw P D K w acc' s = .ok (w2, rc') ∧ execRaw P D K w2 acc r = .ok (w21, rc) ∧
      w21.env = w12.env ∧ w21.clock = w12.clock ∧ ∀ a, Untouched w12 w21 a := by
  have R1 := C67_refines R h1
  have A1 : AgreeOn (s.accounts.map Meta.key) w w1 := untouched_apart h1 hap.1
  obtain ⟨w2, g1, B2⟩ := reads_ok R1 R A1.symm h2
  have R2 := C67_refines R g1
  have A2 : AgreeOn (r.accounts.map Meta.key) w w2 := untouched_apart g1 hap.2
  obtain ⟨w21, g2, B1⟩ := reads_ok R R2 A2 h1
  refine ⟨w2, w21, g1, g2, ?_, ?_, fun a => ?_⟩
  · rw [B1.env, (C67_writes h1).1, (C67_writes h2).1, (C67_writes h1).1]
  · rw [B1.clock, (C67_writes h1).2.1, (C67_writes h2).2.1, (C67_writes h1).2.1]
  by_cases ha : a ∈ r.accounts.map Meta.key
  · have hb : ∀ m ∈ s.accounts, m.key = a → m.writable = false := by
      rintro m hm rfl
      by_contra hw
      exact hap.2 m hm (by simpa using hw) ha
    exact ((C67_writes h2).2.2 a hb).symm.trans (B1.same a ha)
  · have hb : ∀ m ∈ r.accounts, m.key = a → m.writable = false :=
      fun m hm he => absurd (List.mem_map.2 ⟨m, hm, he⟩) ha
    have u21 := (C67_writes g2).2.2 a hb
    by_cases hs : a ∈ s.accounts.map Meta.key
    · exact (B2.same a hs).trans u21
    · have hc : ∀ m ∈ s.accounts, m.key = a → m.writable = false :=
        fun m hm he => absurd (List.mem_map.2 ⟨m, hm, he⟩) hs
      have u12 := (C67_writes h2).2.2 a hc
      have u1 := (C67_writes h1).2.2 a hb
      have u2 := (C67_writes g1).2.2 a hc
      exact ((u1.trans u12).symm.trans u2).trans u21


/-! ## Examples -/

/-- Program addresses for the examples. -/
def exampleIds : ProgIds :=
  { system := .key 900, memo := .key 901, token := .key 902, token2022 := .key 903, eventAuthority := .key 904,
    self := .key 905, distinct := by decide }

/-- Whether a call succeeds. -/
def accepted (w : World) (r : Raw) : Bool :=
  match execRaw exampleIds exampleSelectors exampleKeys w true r with
  | .ok _ => true
  | .error _ => false

/-- Alice's deposit as a client sends it. -/
def aliceDeposit : Raw :=
  clientCall exampleIds exampleSelectors exampleKeys (.deposit (Ex.depositAcc Ex.alice Ex.aliceQuote 100))

/-- The deposit is accepted; it lists nine accounts, of which four are writable and one signs. -/
example : accepted Ex.prorataOpen aliceDeposit = true ∧ aliceDeposit.accounts.length = 9 ∧
    (aliceDeposit.accounts.filter (·.writable)).length = 4 ∧
    (aliceDeposit.accounts.filter (·.signer)).map Meta.key = [Ex.alice] := by decide +kernel

/-- Accounts may follow, and privileges may be added. -/
example : accepted Ex.prorataOpen { aliceDeposit with
    accounts := aliceDeposit.accounts.map fun m => { m with writable := true } } = true := by decide +kernel

/-- Without any one of its privileges, or with two accounts exchanged, it is refused. -/
example : accepted Ex.prorataOpen { aliceDeposit with
    accounts := aliceDeposit.accounts.map fun m => { m with signer := false } } = false := by decide +kernel

example : ∀ k ∈ [0, 1, 3, 4], accepted Ex.prorataOpen { aliceDeposit with
    accounts := aliceDeposit.accounts.mapIdx fun j m => if j = k then { m with writable := false } else m } = false := by
  decide +kernel

example : accepted Ex.prorataOpen { aliceDeposit with
    accounts := aliceDeposit.accounts.take 3 ++ (aliceDeposit.accounts.drop 3).reverse } = false := by decide +kernel

/-- A refresh as a client sends it. -/
def refreshCall (owner : Addr) : Raw :=
  clientCall exampleIds exampleSelectors exampleKeys (.refresh { presale := Ex.sale, escrow := Ex.escrowOf owner })

/-- Refreshes of two escrows of the same sale do not conflict, and both succeed: the hypotheses of `C68_commute` can be
met. Deposits into the same sale do conflict. -/
example : Apart (refreshCall Ex.alice) (refreshCall Ex.bob) ∧
    accepted Ex.prorataDone (refreshCall Ex.alice) = true ∧ accepted Ex.prorataDone (refreshCall Ex.bob) = true ∧
    ¬ Apart aliceDeposit (refreshCall Ex.bob) := by
  refine ⟨?_, ?_, ?_, ?_⟩
  · unfold Apart; decide +kernel
  · decide +kernel
  · decide +kernel
  · unfold Apart; decide +kernel


/-! ## Lamports -/

theorem moveLam_frame {lam l : Addr → Nat} {s d a : Addr} {n : Nat} (h : moveLam lam s d n = .ok l) (h1 : a ≠ s)
    (h2 : a ≠ d) : l a = lam a := by
  obtain ⟨-, -, rfl⟩ := moveLam_iff.1 h
  rw [upd_other _ _ h2, upd_other _ _ h1]

theorem payRent_frame {r : RentEnv} {p a : Addr} {new : List (Addr × Nat)} {lam l : Addr → Nat}
    (h : payRent r p new lam = .ok l) (h1 : a ≠ p) (h2 : ∀ x ∈ new, a ≠ x.1) : l a = lam a := by
  induction new generalizing lam with
  | nil => cases h; rfl
  | cons x new ih =>
    obtain ⟨b, n⟩ := x
    simp only [payRent, bind_eq_ok] at h
    obtain ⟨lam1, g1, g2⟩ := h
    rw [ih g2 fun y hy => h2 y (List.mem_cons_of_mem _ hy)]
    exact moveLam_frame g1 h1 (h2 (b, n) List.mem_cons_self)

/-- **C67.** An instruction moves lamports only between accounts it declares writable. -/
theorem C67_lamports (P : ProgIds) {c c' : Chain} {tx : Tx} {i : Ix} {rc : Receipt}
    (h : cstep c (.op (.ix tx i)) = .ok (c', rc)) (a : Addr)
    (ha : ∀ m ∈ declared P i, m.writable = true → m.key ≠ a) : c'.lam a = c.lam a := by
  have hd : ∀ k, (∃ m ∈ own P i, m.writable = true ∧ m.key = k) → a ≠ k := by
    rintro k ⟨m, hm, hw, rfl⟩ rfl
    exact ha m (List.mem_append_left _ hm) hw rfl
  have hpay : ∀ p, rentPayer i = some p → a ≠ p := by
    intro p hp
    apply hd
    cases i <;> simp only [rentPayer, Option.some.injEq, reduceCtorEq] at hp <;> subst hp <;>
      simp [own, Spec.r, Spec.s, Spec.wr, Spec.sw]
  have hnew : ∀ x ∈ creations c.rent c.w i, a ≠ x.1 := by
    intro x hx
    apply hd
    cases i <;> simp only [creations, List.not_mem_nil, List.mem_cons, or_false] at hx <;>
      first
      | (subst hx; simp [own, Spec.r, Spec.s, Spec.wr, Spec.sw, DEFAULT_PERMISSIONLESS_REGISTRY_INDEX])
      | (rcases hx with rfl | rfl | rfl <;> simp [own, Spec.r, Spec.s, Spec.wr, Spec.sw])
  have hclose : ∀ x d, closing i = some (x, d) → a ≠ x ∧ a ≠ d := by
    intro x d hx
    refine ⟨hd x ?_, hd d ?_⟩ <;>
    · cases i <;> simp only [closing, Option.some.injEq, reduceCtorEq, Prod.mk.injEq] at hx <;>
        obtain ⟨rfl, rfl⟩ := hx <;> simp [own, Spec.r, Spec.s, Spec.wr, Spec.sw]
  obtain ⟨w', l, -, hl, rfl⟩ := cstep_op.1 h
  replace hl : lamports c.rent c.w i c.lam = .ok l := hl
  simp only [lamports, bind_eq_ok, chargeRent, payOut] at hl
  obtain ⟨l1, h1, h2⟩ := hl
  have e1 : l1 a = c.lam a := by
    split at h1
    · next p hp => exact payRent_frame h1 (hpay p hp) hnew
    · cases h1; rfl
  have e2 : l a = l1 a := by
    split at h2
    · next x d hx => exact moveLam_frame h2 (hclose x d hx).1 (hclose x d hx).2
    · cases h2; rfl
  exact e2.trans e1

/-- Not a vacuous rule: opening an escrow costs its payer lamports, all other listed accounts but the escrow keep
theirs. -/
example : (own exampleIds (.createEscrow { presale := Ex.sale, owner := Ex.bob, payer := Ex.alice })).filter
    (·.writable) = [Spec.wr Ex.sale, Spec.wr (Ex.escrowOf Ex.bob), Spec.sw Ex.alice] := by decide +kernel

end Verif
