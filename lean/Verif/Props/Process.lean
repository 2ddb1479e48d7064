import Verif.SpecBank
import Verif.Props.Entry
import Verif.Props.Lifecycle
import Verif.Props.Creation
/-!
# C81: the program on bytes

The byte machine of `Model/Process.lean` and the ledger machine take the same steps. So everything proved about
reachable states holds of the bytes the runtime keeps.
-/

namespace Verif
open Spec (Stored addresses Represents Named Keyed BankGenesis kindAt Untouched AgreeOn Shows ShowsIn)

/-! ## Reading what was written -/

theorem Reachable.kindAt {w : World} (R : Reachable w) {k : Kind} {a : Addr} {v : k.Value} (h : Stored w k a v) :
    kindAt a = some k := by
  have W := R.winv
  cases k with
  | presale =>
    have e : a = Addr.presale (Presale.base v) (Presale.baseMint v) (Presale.quoteMint v) :=
      (W.core.sale a v h).pinv.static.key
    rw [e]; rfl
  | escrow =>
    have e : a = Addr.escrow (Escrow.presale v) (Escrow.owner v) (Escrow.registryIndex v) :=
      (W.core.esc (a, v) (AMap.get?_mem h)).1
    rw [e]; rfl
  | fixedArgs =>
    have e : a = Addr.fixedPriceArgs (FixedPriceArgs.presale v) := (W.aux.fixed a v h).1
    rw [e]; rfl
  | merkleRoot =>
    have e : a = Addr.merkleRoot (MerkleRootConfig.presale v) (MerkleRootConfig.version v) := (W.aux.merkle a v h).1
    rw [e]; rfl
  | operator =>
    have e : a = Addr.operator (Operator.creator v) (Operator.owner v) := W.aux.ops a v h
    rw [e]; rfl
  | metadata =>
    have e : a = Addr.serverMetadata (ServerMetadata.presale v) := (W.aux.metas a v h).1
    rw [e]; rfl

/-- What is stored under an address as a given type. -/
def storedAs (w : World) : (k : Kind) → Addr → Option k.Value
  | .presale, a => w.presales a
  | .escrow, a => w.escrows.get? a
  | .fixedArgs, a => w.fixedArgs a
  | .merkleRoot, a => w.merkleRoots a
  | .operator, a => w.operators a
  | .metadata, a => w.metadata a

theorem storedAs_iff {w : World} {k : Kind} {a : Addr} {v : k.Value} : storedAs w k a = some v ↔ Stored w k a v := by
  cases k <;> exact Iff.rfl

theorem Reachable.other_kind {w : World} (R : Reachable w) {k k' : Kind} {a : Addr} {v : k.Value} (h : Stored w k a v)
    (hne : k' ≠ k) : storedAs w k' a = none := by
  cases h' : storedAs w k' a with
  | none => rfl
  | some v' =>
    have := (R.kindAt h).symm.trans (R.kindAt (storedAs_iff.1 h'))
    exact (hne (Option.some.inj this).symm).elim

theorem dataAt_storedAs (D : Discs Kind) (K : Keys) (w : World) (a : Addr) :
    w.dataAt D K a =
      ((storedAs w .presale a).map (writeAccount D K .presale)).or
      (((storedAs w .escrow a).map (writeAccount D K .escrow)).or
      (((storedAs w .fixedArgs a).map (writeAccount D K .fixedArgs)).or
      (((storedAs w .merkleRoot a).map (writeAccount D K .merkleRoot)).or
      (((storedAs w .operator a).map (writeAccount D K .operator)).or
      ((storedAs w .metadata a).map (writeAccount D K .metadata)))))) := rfl

theorem Reachable.dataAt_some {D : Discs Kind} {K : Keys} {w : World} (R : Reachable w) {k : Kind} {a : Addr} {v : k.Value}
    (h : Stored w k a v) : w.dataAt D K a = some (writeAccount D K k v) := by
  have hs := storedAs_iff.2 h
  have hn := fun k' => R.other_kind (k' := k') h
  rw [dataAt_storedAs]
  cases k <;> simp [hs, hn]

theorem dataAt_none {D : Discs Kind} {K : Keys} {w : World} {a : Addr} (h : ∀ k v, ¬ Stored w k a v) :
    w.dataAt D K a = none := by
  have hn : ∀ k, storedAs w k a = none := fun k => Option.eq_none_iff_forall_ne_some.2 fun v e =>
    h k v (storedAs_iff.1 e)
  simp only [dataAt_storedAs, hn, Option.map_none, Option.none_or]

theorem Reachable.represents_iff {D : Discs Kind} {K : Keys} {b : Bank} {w : World} (R : Reachable w) :
    Represents D K b w ↔ b.env = w.env ∧ b.clock = w.clock ∧ b.tk = w.tk ∧ ∀ a, b.data a = w.dataAt D K a := by
  constructor
  · intro h
    refine ⟨h.env, h.clock, h.tk, fun a => ?_⟩
    by_cases hs : ∃ k v, Stored w k a v
    · obtain ⟨k, v, hs⟩ := hs
      rw [R.dataAt_some hs, h.data k a v hs]
    · have hs' : ∀ k v, ¬ Stored w k a v := fun k v hv => hs ⟨k, v, hv⟩
      rw [dataAt_none hs', h.empty a hs']
  · rintro ⟨h1, h2, h3, h4⟩
    exact ⟨h1, h2, h3, fun k a v hs => (h4 a).trans (R.dataAt_some hs), fun a hs => (h4 a).trans (dataAt_none hs)⟩

theorem Reachable.read_iff {D : Discs Kind} {K : Keys} {b : Bank} {w : World} (R : Reachable w)
    (hclock : w.clock < (2 : Int) ^ 63) (N : Named K w) (h : Represents D K b w) (k : Kind) (a : Addr) :
    (b.data a).bind (readAccount D K k) = storedAs w k a := by
  have hc : w.clock < (2 : Int) ^ 64 := lt_trans hclock (by norm_num)
  by_cases hs : ∃ k v, Stored w k a v
  · obtain ⟨k0, v, hs⟩ := hs
    rw [h.data k0 a v hs, Option.bind_some]
    by_cases e : k = k0
    · subst e
      have := C64_round_trip R hc D hs (N _ _ _ hs) []
      rw [List.append_nil] at this
      rw [this, storedAs_iff.2 hs]
    · have := C64_kinds D K e v []
      rw [List.append_nil] at this
      rw [this, R.other_kind hs e]
  · rw [h.empty a (fun k v hv => hs ⟨k, v, hv⟩), Option.bind_none]
    exact (Option.eq_none_iff_forall_ne_some.2 fun v e => hs ⟨k, v, storedAs_iff.1 e⟩).symm

theorem AMap.get?_pick {V : Type} (f : Addr → Option V) (l : List Addr) (a : Addr) :
    AMap.get? (l.filterMap fun x => (f x).map fun v => (x, v)) a = if a ∈ l then f a else none := by
  induction l with
  | nil => rfl
  | cons x l ih =>
    rw [List.filterMap_cons]
    by_cases e : a = x
    · subst e
      rw [if_pos List.mem_cons_self]
      cases hf : f a with
      | none =>
        simp only [Option.map_none]
        rw [ih, hf, ite_self]
      | some v =>
        simp only [Option.map_some, AMap.get?, if_true]
    · have hm : a ∈ x :: l ↔ a ∈ l := by simp [e]
      simp only [hm]
      cases hf : f x with
      | none => simp only [Option.map_none]; exact ih
      | some v =>
        simp only [Option.map_some, AMap.get?]
        rw [if_neg (Ne.symm e), ih]

theorem AMap.keys_pick {V : Type} (f : Addr → Option V) (l : List Addr) :
    List.Sublist (AMap.keys (l.filterMap fun x => (f x).map fun v => (x, v))) l := by
  induction l with
  | nil => exact List.Sublist.slnil
  | cons x l ih =>
    rw [List.filterMap_cons]
    cases hf : f x with
    | none => simp only [Option.map_none]; exact ih.cons _
    | some v => simp only [Option.map_some, AMap.keys, List.map_cons]; exact ih.cons_cons _

theorem see_nodup (D : Discs Kind) (K : Keys) (b : Bank) (keys : List Addr) :
    (AMap.keys (b.see D K keys).escrows).Nodup :=
  (AMap.keys_pick (V := Escrow) _ keys.dedup).nodup (List.nodup_dedup keys)

/-- The program sees the listed accounts as they are. -/
theorem see_agree {D : Discs Kind} {K : Keys} {b : Bank} {w : World} (R : Reachable w)
    (hclock : w.clock < (2 : Int) ^ 63) (N : Named K w) (h : Represents D K b w) (keys : List Addr) :
    AgreeOn keys w (b.see D K keys) := by
  have hr := R.read_iff hclock N h
  refine ⟨h.env, h.clock, fun a ha => ?_⟩
  refine ⟨?_, ?_, ?_, ?_, ?_, ?_, ?_, ?_⟩
  · exact (if_pos ha).trans (hr .presale a)
  · refine (AMap.get?_pick (V := Escrow) _ _ _).trans ((if_pos (List.mem_dedup.2 ha)).trans (hr .escrow a))
  · exact (if_pos ha).trans (hr .merkleRoot a)
  · exact (if_pos ha).trans (hr .operator a)
  · exact (if_pos ha).trans (hr .metadata a)
  · exact (if_pos ha).trans (hr .fixedArgs a)
  · exact (if_pos ha).trans (by rw [h.tk])
  · exact (if_pos ha).trans (by rw [h.tk])

theorem dataAt_untouched {D : Discs Kind} {K : Keys} {w w' : World} {a : Addr} (h : Untouched w w' a) :
    w'.dataAt D K a = w.dataAt D K a := by
  unfold World.dataAt
  rw [h.presale, h.escrow, h.merkle, h.operator, h.metadata, h.fixedArgs]

theorem Tokens.same {t t' : Tokens} (h : ∀ a, t.toks a = t'.toks a ∧ t.mints a = t'.mints a) : t = t' := by
  cases t; cases t'
  congr 1
  · exact funext fun a => (h a).1
  · exact funext fun a => (h a).2

/-! ## One call -/

/-- **C81.** A call on the bytes and the same call on the ledger they stand for: both fail, with the same error, or both
succeed, with the same receipt, and the new bytes stand for the new ledger. -/
theorem C81_call (P : ProgIds) (D : Discs Kind) (DI : Discs IxName) (K : Keys) {b : Bank} {w : World} (R : Reachable w)
    (hclock : w.clock < (2 : Int) ^ 63) (N : Named K w) (h : Represents D K b w) (acc : Bool) (c : Wire) :
    match process P D DI K b acc c, execRaw P DI K w acc (c.raw K) with
    | .ok (b', rc), .ok (w', rc') => rc = rc' ∧ Represents D K b' w'
    | .error e, .error e' => e = e'
    | _, _ => False := by
  have A := see_agree R hclock N h ((c.raw K).accounts.map Meta.key)
  have S := execRaw_reads P DI K R.winv.core.nodup (see_nodup D K b _) acc (c.raw K) A
  unfold process
  simp only
  revert S
  cases h1 : execRaw P DI K w acc (c.raw K) with
  | error e =>
    cases h2 : execRaw P DI K (b.see D K ((c.raw K).accounts.map Meta.key)) acc (c.raw K) with
    | error e' => intro S; exact S.symm
    | ok x => intro S; exact S.elim
  | ok x =>
    obtain ⟨w', rc⟩ := x
    cases h2 : execRaw P DI K (b.see D K ((c.raw K).accounts.map Meta.key)) acc (c.raw K) with
    | error e' => intro S; exact S.elim
    | ok y =>
      obtain ⟨v', rc'⟩ := y
      rintro ⟨rfl, S⟩
      have R' := C67_refines R h1
      obtain ⟨f1, f2, f3⟩ := C67_writes h1
      obtain ⟨-, -, -, hd⟩ := R.represents_iff.1 h
      have key : ∀ a, ((∃ m ∈ (c.raw K).accounts, m.key = a ∧ m.writable = true) ∧
          a ∈ (c.raw K).accounts.map Meta.key) ∨
          ((¬ ∃ m ∈ (c.raw K).accounts, m.key = a ∧ m.writable = true) ∧ Untouched w w' a) := by
        intro a
        by_cases hw : ∃ m ∈ (c.raw K).accounts, m.key = a ∧ m.writable = true
        · obtain ⟨m, hm, rfl, hw'⟩ := hw
          exact .inl ⟨⟨m, hm, rfl, hw'⟩, List.mem_map_of_mem hm⟩
        · refine .inr ⟨hw, f3 a fun m hm e => ?_⟩
          by_contra hx
          exact hw ⟨m, hm, e, by simpa using hx⟩
      have tok : ∀ a, ((b.write D K (c.raw K).accounts (b.see D K ((c.raw K).accounts.map Meta.key)) v').tk.toks a =
          w'.tk.toks a) ∧ ((b.write D K (c.raw K).accounts (b.see D K ((c.raw K).accounts.map Meta.key)) v').tk.mints a =
          w'.tk.mints a) := by
        intro a
        rcases key a with ⟨hw, hl⟩ | ⟨hw, hu⟩
        · have u := S.same a hl
          exact ⟨(if_pos (decide_eq_true hw)).trans u.token, (if_pos (decide_eq_true hw)).trans u.mint⟩
        · have hf : ¬ decide (∃ m ∈ (c.raw K).accounts, m.key = a ∧ m.writable = true) = true := by
            rw [decide_eq_true_eq]; exact hw
          exact ⟨(if_neg hf).trans ((congrArg (fun t => t.toks a) h.tk).trans hu.token.symm),
            (if_neg hf).trans ((congrArg (fun t => t.mints a) h.tk).trans hu.mint.symm)⟩
      refine ⟨rfl, R'.represents_iff.2 ⟨h.env.trans f1.symm, h.clock.trans f2.symm, ?_, fun a => ?_⟩⟩
      · exact Tokens.same tok
      · rcases key a with ⟨hw, hl⟩ | ⟨hw, hu⟩
        · have e1 : v'.dataAt D K a = w'.dataAt D K a := dataAt_untouched (S.same a hl)
          have e2 : (b.see D K ((c.raw K).accounts.map Meta.key)).dataAt D K a = w.dataAt D K a :=
            dataAt_untouched (A.same a hl)
          by_cases hc : v'.dataAt D K a = (b.see D K ((c.raw K).accounts.map Meta.key)).dataAt D K a
          · exact (if_neg fun hx => hx.2 hc).trans ((hd a).trans (e2.symm.trans (hc.symm.trans e1)))
          · exact (if_pos ⟨decide_eq_true hw, hc⟩).trans e1
        · refine (if_neg fun hx => hw (of_decide_eq_true hx.1)).trans ((hd a).trans (dataAt_untouched hu).symm)


/-! ## Addresses mentioned -/

local macro "listed" : tactic => `(tactic|
  (simp [Shows, Spec.metas, Spec.declared, Spec.own, Spec.extra, Spec.r, Spec.s, Spec.wr, Spec.sw]))

theorem upd_new {V : Type} {f : Addr → Option V} {k a : Addr} {v v' : V} (h : upd f k (some v) a = some v') :
    (a = k ∧ v' = v) ∨ f a = some v' := by
  unfold upd at h
  split at h
  · next e => exact .inl ⟨e, (Option.some.inj h).symm⟩
  · exact .inr h

theorem upd_gone {V : Type} {f : Addr → Option V} {k a : Addr} {v' : V} (h : upd f k none a = some v') :
    f a = some v' := by
  unfold upd at h
  split at h
  · cases h
  · exact h

theorem set_new {m : AMap Addr Escrow} {k a : Addr} {v v' : Escrow} (h : (m.set k v).get? a = some v') :
    (a = k ∧ v' = v) ∨ m.get? a = some v' := by
  rw [AMap.get?_set] at h
  split at h
  · next e => exact .inl ⟨e, (Option.some.inj h).symm⟩
  · exact .inr h


theorem old_upd {V : Type} {f : Addr → Option V} {k a : Addr} {v v0 v' : V} (h0 : f k = some v0)
    (h : upd f k (some v) a = some v') : ∃ x, f a = some x := by
  rcases upd_new h with ⟨rfl, -⟩ | h
  · exact ⟨v0, h0⟩
  · exact ⟨v', h⟩

theorem old_set {m : AMap Addr Escrow} {k a : Addr} {v v0 v' : Escrow} (h0 : m.get? k = some v0)
    (h : (m.set k v).get? a = some v') : ∃ x, m.get? a = some x := by
  rcases set_new h with ⟨rfl, -⟩ | h
  · exact ⟨v0, h0⟩
  · exact ⟨v', h⟩

theorem old_erase {m : AMap Addr Escrow} {k a : Addr} {v0 v' : Escrow} (h0 : m.get? k = some v0)
    (h : (m.erase k).get? a = some v') : ∃ x, m.get? a = some x := by
  by_cases e : a = k
  · exact ⟨v0, e ▸ h0⟩
  · exact ⟨v', (AMap.get?_erase_ne _ e).symm.trans h⟩

local macro "keep " hs:ident F:ident : tactic => `(tactic|
  first
  | exact .inl ⟨_, $hs, fun _ => rfl⟩
  | exact .inl ((old_upd ($F).presale $hs).imp fun _ h => ⟨h, fun e => by cases e⟩)
  | exact .inl ((old_set ($F).escrow $hs).imp fun _ h => ⟨h, fun e => by cases e⟩)
  | exact .inl ((old_erase ($F).escrow $hs).imp fun _ h => ⟨h, fun e => by cases e⟩)
  | exact .inl ⟨_, upd_gone $hs, fun _ => rfl⟩)

theorem created_escrow {P : ProgIds} {i : Ix} {w w' : World} {p : Presale} {key owner : Addr} {n : Nat}
    {cap : Option Nat} {rc : Receipt} {r : Registry} {p' : Presale} (F : CreateEscrowFacts w p key owner n cap w' rc r p')
    (hp : w.presales key = some p) (hk : Shows P i key) (ho : Shows P i owner) {k : Kind} {a : Addr} {v : k.Value}
    (hs : Stored w' k a v) : (∃ v0, Stored w k a v0 ∧ (k = .fixedArgs → addresses k v = addresses k v0)) ∨ ∀ x ∈ addresses k v, Shows P i x := by
  rw [F.post] at hs
  cases k
  case presale => exact .inl ((old_upd hp hs).imp fun _ h => ⟨h, fun e => by cases e⟩)
  case escrow =>
    rcases set_new hs with ⟨-, e⟩ | h
    · right
      have e1 : Escrow.presale v = key := congrArg Escrow.presale e
      have e2 : Escrow.owner v = owner := congrArg Escrow.owner e
      intro x hx
      have hx' : x ∈ [Escrow.presale v, Escrow.owner v] := hx
      rw [e1, e2] at hx'
      rcases List.mem_cons.1 hx' with rfl | h
      · exact hk
      · rw [List.mem_singleton.1 h]; exact ho
    · exact .inl ⟨_, h, fun _ => rfl⟩
  all_goals exact .inl ⟨_, hs, fun _ => rfl⟩

/-- An account was there before, or Shows only addresses that came with the call. -/
theorem execIx_new (P : ProgIds) {w w' : World} (R : Reachable w) {tx : Tx} {i : Ix} {rc : Receipt}
    (h : execIx w tx i = .ok (w', rc)) {k : Kind} {a : Addr} {v : k.Value} (hs : Stored w' k a v) :
    (∃ v0, Stored w k a v0 ∧ (k = .fixedArgs → addresses k v = addresses k v0)) ∨ ∀ x ∈ addresses k v, Shows P i x := by
  cases i
  case initFixedArgs y =>
    have F := handleInitFixedArgs_iff.1 h
    rw [F.post] at hs
    cases k
    case fixedArgs =>
      rcases upd_new hs with ⟨-, e⟩ | h
      · right
        have e1 : FixedPriceArgs.owner v = y.owner := congrArg FixedPriceArgs.owner e
        have e2 : FixedPriceArgs.presale v = y.presale := congrArg FixedPriceArgs.presale e
        intro x hx
        have hx' : x ∈ [FixedPriceArgs.owner v, FixedPriceArgs.presale v] := hx
        rw [e1, e2] at hx'
        rcases List.mem_cons.1 hx' with rfl | h
        · listed
        · exact .inr ⟨y, rfl, List.mem_singleton.1 h⟩
      · exact .inl ⟨_, h, fun _ => rfl⟩
    all_goals exact .inl ⟨_, hs, fun _ => rfl⟩
  case closeFixedArgs y =>
    obtain ⟨_, F⟩ := handleCloseFixedArgs_iff.1 h
    rw [F.post] at hs
    cases k <;> keep hs F
  case initPresale y =>
    obtain ⟨p, hp, -, -, c1, c2, c3, c4, c5, c6, -⟩ := C53_created_as_asked R (tx := tx) (x := y) h
    have h' := h
    obtain ⟨_, _, p0, _, _, _, _, _, _, _, F⟩ := handleInitPresale_iff.1 h
    rw [F.post] at hs hp
    cases k
    case presale =>
      rcases upd_new hs with ⟨rfl, e⟩ | h
      · right
        have e0 : (v : Presale) = p := by
          have : upd w.presales y.presaleKey (some p0) y.presaleKey = some p := hp
          rw [upd_self] at this
          exact e.trans (Option.some.inj this)
        intro x hx
        have hx' : x ∈ [Presale.owner v, Presale.quoteMint v, Presale.baseMint v, Presale.baseTokenVault v,
          Presale.quoteTokenVault v, Presale.base v] := hx
        rw [e0, c1, c2, c3, c4, c5, c6] at hx'
        simp only [List.mem_cons, List.not_mem_nil, or_false] at hx'
        rcases hx' with rfl | rfl | rfl | rfl | rfl | rfl <;> listed
      · exact .inl ⟨_, h, fun _ => rfl⟩
    all_goals exact .inl ⟨_, hs, fun _ => rfl⟩
  case createMerkle y =>
    obtain ⟨_, F⟩ := handleCreateMerkle_iff.1 h
    rw [F.post] at hs
    cases k
    case merkleRoot =>
      rcases upd_new hs with ⟨-, e⟩ | h
      · right
        have e1 : MerkleRootConfig.presale v = y.presale := congrArg MerkleRootConfig.presale e
        intro x hx
        have hx' : x ∈ [MerkleRootConfig.presale v] := hx
        rw [e1] at hx'
        rw [List.mem_singleton.1 hx']
        listed
      · exact .inl ⟨_, h, fun _ => rfl⟩
    all_goals exact .inl ⟨_, hs, fun _ => rfl⟩
  case closeMerkle y =>
    obtain ⟨_, _, F⟩ := handleCloseMerkle_iff.1 h
    rw [F.post] at hs
    cases k <;> keep hs F
  case createEscrow y =>
    obtain ⟨_, _, _, C, F⟩ := handleCreateEscrow_iff.1 h
    exact created_escrow F C.presale (by listed) (by listed) hs
  case createEscrowCreator y =>
    obtain ⟨_, _, _, _, C, F⟩ := handleCreateEscrowCreator_iff.1 h
    exact created_escrow F C.presale (by listed) (by listed) hs
  case createEscrowMerkle y =>
    obtain ⟨_, _, _, _, C, F⟩ := handleCreateEscrowMerkle_iff.1 h
    exact created_escrow F C.presale (by listed) (by listed) hs
  case createOperator y =>
    have F := handleCreateOperator_iff.1 h
    rw [F.post] at hs
    cases k
    case operator =>
      rcases upd_new hs with ⟨-, e⟩ | h
      · right
        have e1 : Operator.owner v = y.operatorOwner := congrArg Operator.owner e
        have e2 : Operator.creator v = y.creator := congrArg Operator.creator e
        intro x hx
        have hx' : x ∈ [Operator.owner v, Operator.creator v] := hx
        rw [e1, e2] at hx'
        simp only [List.mem_cons, List.not_mem_nil, or_false] at hx'
        rcases hx' with rfl | rfl <;> listed
      · exact .inl ⟨_, h, fun _ => rfl⟩
    all_goals exact .inl ⟨_, hs, fun _ => rfl⟩
  case revokeOperator y =>
    obtain ⟨_, F⟩ := handleRevokeOperator_iff.1 h
    rw [F.post] at hs
    cases k <;> keep hs F
  case deposit y =>
    obtain ⟨_, _, _, _, _, _, _, _, _, F⟩ := handleDeposit_iff.1 h
    rw [F.post] at hs
    cases k <;> keep hs F
  case withdraw y =>
    obtain ⟨_, _, _, _, _, _, _, _, _, _, _, F⟩ := handleWithdraw_iff.1 h
    rw [F.post] at hs
    cases k <;> keep hs F
  case claim y =>
    obtain ⟨_, _, _, _, _, _, F⟩ := handleClaim_iff.1 h
    rcases F.out with ⟨-, _, _, _, _, _, _, -, -, h3, h4, -⟩ | ⟨-, h4, -⟩ <;> rw [h4] at hs <;> cases k <;> keep hs F
  case refund y =>
    obtain ⟨_, _, _, _, _, _, _, _, F⟩ := handleRefund_iff.1 h
    rcases F.out with ⟨-, _, _, h3, h4, -⟩ | ⟨-, h4, -⟩ <;> rw [h4] at hs <;> cases k <;> keep hs F
  case unsold y =>
    obtain ⟨_, _, _, _, _, _, F⟩ := handleUnsold_iff.1 h
    rw [F.post] at hs
    cases k <;> keep hs F
  case closeEscrow y =>
    obtain ⟨_, _, _, F⟩ := handleCloseEscrow_iff.1 h
    rw [F.post] at hs
    cases k <;> keep hs F
  case creatorWithdraw y =>
    obtain ⟨_, c, _, _, _, _, _, _, F⟩ := handleCreatorWithdraw_iff.1 h
    rw [F.post] at hs
    cases k <;> keep hs F
  case refresh y =>
    obtain ⟨_, _, _, F⟩ := (handleRefresh_iff (tx := tx)).1 h
    rw [F.post] at hs
    cases k <;> keep hs F
  case createMetadata y =>
    obtain ⟨_, F⟩ := handleCreateMetadata_iff.1 h
    rw [F.post] at hs
    cases k
    case metadata =>
      rcases upd_new hs with ⟨-, e⟩ | h
      · right
        have e1 : ServerMetadata.presale v = y.presale := congrArg ServerMetadata.presale e
        intro x hx
        have hx' : x ∈ [ServerMetadata.presale v] := hx
        rw [e1] at hx'
        rw [List.mem_singleton.1 hx']
        listed
      · exact .inl ⟨_, h, fun _ => rfl⟩
    all_goals exact .inl ⟨_, hs, fun _ => rfl⟩
  case closeMetadata y =>
    obtain ⟨_, _, F⟩ := handleCloseMetadata_iff.1 h
    rw [F.post] at hs
    cases k <;> keep hs F
  case collectFee y =>
    obtain ⟨_, _, _, _, F⟩ := handleCollectFee_iff.1 h
    rcases F.out with ⟨-, _, _, _, _, -, h3, h4, -⟩ | ⟨-, h4, -⟩ <;> rw [h4] at hs <;> cases k <;> keep hs F

/-- The addresses of an account that stays do not change. -/
theorem addresses_kept {w w' : World} (R : Reachable w) (R' : Reachable w') (hlater : ∃ ops, w' = run w ops) {k : Kind}
    {a : Addr} {v v' : k.Value} (h : Stored w k a v) (h' : Stored w' k a v')
    (hf : k = .fixedArgs → addresses k v' = addresses k v) : addresses k v' = addresses k v := by
  have W := R.winv
  have W' := R'.winv
  cases k with
  | presale =>
    obtain ⟨ops, rfl⟩ := hlater
    obtain ⟨p', hp', ht, -⟩ := C32_terms_immutable R h ops
    have e : p' = v' := Option.some.inj (hp'.symm.trans h')
    subst e
    obtain ⟨c1, c2, c3, c4, c5, c6, -⟩ := C32_fields ht
    show [_, _, _, _, _, _] = [_, _, _, _, _, _]
    rw [c1, c2, c3, c4, c5, c6]
  | escrow =>
    have e : a = Addr.escrow (Escrow.presale v) (Escrow.owner v) (Escrow.registryIndex v) :=
      (W.core.esc (a, v) (AMap.get?_mem h)).1
    have e' : a = Addr.escrow (Escrow.presale v') (Escrow.owner v') (Escrow.registryIndex v') :=
      (W'.core.esc (a, v') (AMap.get?_mem h')).1
    rw [e] at e'
    injection e' with e1 e2
    show [_, _] = [_, _]
    rw [e1, e2]
  | fixedArgs => exact hf rfl
  | merkleRoot =>
    have e : a = Addr.merkleRoot (MerkleRootConfig.presale v) (MerkleRootConfig.version v) := (W.aux.merkle a v h).1
    have e' : a = Addr.merkleRoot (MerkleRootConfig.presale v') (MerkleRootConfig.version v') :=
      (W'.aux.merkle a v' h').1
    rw [e] at e'
    injection e' with e1 e2
    show [_] = [_]
    rw [e1]
  | operator =>
    have e : a = Addr.operator (Operator.creator v) (Operator.owner v) := W.aux.ops a v h
    have e' : a = Addr.operator (Operator.creator v') (Operator.owner v') := W'.aux.ops a v' h'
    rw [e] at e'
    injection e' with e1 e2
    show [_, _] = [_, _]
    rw [e1, e2]
  | metadata =>
    have e : a = Addr.serverMetadata (ServerMetadata.presale v) := (W.aux.metas a v h).1
    have e' : a = Addr.serverMetadata (ServerMetadata.presale v') := (W'.aux.metas a v' h').1
    rw [e] at e'
    injection e' with e1
    show [_] = [_]
    rw [e1]

/-- A call on known addresses leaves only known addresses in the accounts. -/
theorem named_after {P : ProgIds} {K : Keys} {w w' : World} (R : Reachable w) {tx : Tx} {i : Ix} {rc : Receipt}
    (h : execIx w tx i = .ok (w', rc)) (N : Named K w) (hk : ∀ x, Shows P i x → K.known x) : Named K w' := by
  intro k a v hs x hx
  have hs1 : step w (.ix tx i) = .ok (w', rc) := h
  rcases execIx_new P R h hs with ⟨v0, h0, hf⟩ | hm
  · rw [addresses_kept R (R.step hs1) ⟨[.ix tx i], by simp only [run, apply, hs1]⟩ h0 hs hf] at hx
    exact N k a v0 h0 x hx
  · exact hk x (hm x hx)


/-! ## Histories -/

theorem Keys.known_dec (K : Keys) {b : Bytes} (h : b.length = 32) : K.known (K.dec b) := by
  unfold Keys.known; rw [K.enc_dec b h]

theorem call_known {P : ProgIds} {DI : Discs IxName} {K : Keys} {c : Wire} (hc : Keyed c) {i : Ix}
    (hd : decodeCall DI K c.data = some i.call) (G : Spec.GoodFor P i (c.raw K).accounts) {x : Addr}
    (hx : Shows P i x) : K.known x := by
  rcases hx with hx | ⟨y, rfl, rfl⟩
  · obtain ⟨m, hm, rfl⟩ := List.mem_map.1 (good_listed G hx)
    obtain ⟨m0, h0, rfl⟩ := List.mem_map.1 hm
    exact K.known_dec (hc m0 h0)
  · exact (C66_sound DI K hd).1.1

/-- The bytes, the state they stand for, and what makes them readable. -/
structure Tracks (D : Discs Kind) (K : Keys) (b : Bank) (w : World) : Prop where
  reach : Reachable w
  clock : w.clock < (2 : Int) ^ 63
  named : Named K w
  rep : Represents D K b w

theorem Tracks.call {P : ProgIds} {D : Discs Kind} {DI : Discs IxName} {K : Keys} {b b' : Bank} {w : World}
    (T : Tracks D K b w) {acc : Bool} {c : Wire} (hc : Keyed c) {rc : Receipt}
    (h : process P D DI K b acc c = .ok (b', rc)) :
    ∃ i w', execIx w ((c.raw K).tx acc) i = .ok (w', rc) ∧ Tracks D K b' w' := by
  have S := C81_call P D DI K T.reach T.clock T.named T.rep acc c
  rw [h] at S
  cases h1 : execRaw P DI K w acc (c.raw K) with
  | error e => rw [h1] at S; exact S.elim
  | ok x =>
    obtain ⟨w', rc'⟩ := x
    rw [h1] at S
    obtain ⟨rfl, S⟩ := S
    obtain ⟨i, h2, h3, h4⟩ := execRaw_iff.1 h1
    exact ⟨i, w', h4, C67_refines T.reach h1, (C67_writes h1).2.1 ▸ T.clock,
      named_after T.reach h4 T.named fun x hx => call_known hc h2 h3 hx, S⟩

/-- Nothing the program stores differs. -/
theorem stored_eq {w w' : World} (h1 : w'.presales = w.presales) (h2 : w'.escrows = w.escrows)
    (h3 : w'.merkleRoots = w.merkleRoots) (h4 : w'.operators = w.operators) (h5 : w'.metadata = w.metadata)
    (h6 : w'.fixedArgs = w.fixedArgs) (k : Kind) (a : Addr) (v : k.Value) : Stored w' k a v ↔ Stored w k a v := by
  cases k <;> simp only [Stored, h1, h2, h3, h4, h5, h6]


/-- The ledger without the program's accounts. -/
def strip (w : World) : World :=
  { env := w.env, clock := w.clock, presales := fun _ => none, escrows := [], merkleRoots := fun _ => none,
    operators := fun _ => none, metadata := fun _ => none, fixedArgs := fun _ => none, tk := w.tk }

theorem step_outside {w : World} {op : Op} (hop : ∀ tx i, op ≠ .ix tx i) :
    match step (strip w) op, step w op with
    | .ok (v, _), .ok (w', _) => v.env = w'.env ∧ v.clock = w'.clock ∧ v.tk = w'.tk ∧
        (w'.env = w.env ∧ ∀ k a v, Stored w' k a v ↔ Stored w k a v)
    | .error _, .error _ => True
    | _, _ => False := by
  have st : ∀ (t : Int) (tk : Tokens) (k : Kind) (a : Addr) (v : k.Value),
      Stored { w with clock := t, tk := tk } k a v ↔ Stored w k a v :=
    fun t tk => stored_eq rfl rfl rfl rfl rfl rfl
  cases op with
  | ix tx i => exact (hop tx i rfl).elim
  | tick s => exact ⟨rfl, rfl, rfl, rfl, st _ w.tk⟩
  | setTok a t =>
    by_cases h1 : a.isVault = false
    · by_cases h2 : ∀ x ∈ t, x.amount < u64Bound
      · simp only [step, require, if_pos h1, if_pos h2]
        exact ⟨rfl, rfl, rfl, rfl, st w.clock _⟩
      · simp only [step, require, if_pos h1, if_neg h2]
        trivial
    · simp only [step, require, if_neg h1]
      trivial
  | donate a n =>
    simp only [step, strip]
    cases w.tk.toks a with
    | none => trivial
    | some t =>
      by_cases h1 : t.amount + n < u64Bound
      · simp only [load, ok_bind, require, if_pos h1]
        exact ⟨rfl, rfl, rfl, rfl, st w.clock _⟩
      · simp only [load, ok_bind, require, if_neg h1]
        trivial
  | freezeVault a f =>
    simp only [step, strip]
    cases w.tk.toks a with
    | none => trivial
    | some t => exact ⟨rfl, rfl, rfl, rfl, st w.clock _⟩
  | setMint a m =>
    by_cases h1 : m.wellFormed = true
    · by_cases h2 : ∀ old ∈ w.tk.mints a, isSupportedMint old = true →
          m.program = old.program ∧ m.isNative = old.isNative ∧ Ext.grown m.exts old.exts
      · have h3 : ∀ old ∈ (strip w).tk.mints a, isSupportedMint old = true →
          m.program = old.program ∧ m.isNative = old.isNative ∧ Ext.grown m.exts old.exts := h2
        simp only [step, require, if_pos h1, if_pos h2, if_pos h3]
        exact ⟨rfl, rfl, rfl, rfl, st w.clock _⟩
      · have h3 : ¬ ∀ old ∈ (strip w).tk.mints a, isSupportedMint old = true →
          m.program = old.program ∧ m.isNative = old.isNative ∧ Ext.grown m.exts old.exts := h2
        simp only [step, require, if_pos h1, if_neg h2, if_neg h3]
        trivial
    · simp only [step, require, if_neg h1]
      trivial

theorem outside_eq {b : Bank} {w : World} (he : b.env = w.env) (hc : b.clock = w.clock) (ht : b.tk = w.tk) {op : Op}
    (hop : ∀ tx i, op ≠ .ix tx i) :
    b.outside op = do
      let (w', _) ← step (strip w) op
      require (w'.clock < (2 : Int) ^ 63) (.x .constraint)
      return { b with clock := w'.clock, tk := w'.tk } := by
  unfold Bank.outside strip
  rw [he, hc, ht]
  cases op
  case ix tx i => exact (hop tx i rfl).elim
  all_goals rfl

/-- Steps from outside act alike on two ledgers with the same tokens and clock. -/
theorem Tracks.outside {D : Discs Kind} {K : Keys} {b b' : Bank} {w : World} (T : Tracks D K b w) {op : Op}
    (h : b.outside op = .ok b') :
    ∃ w' rc, (∀ tx i, op ≠ .ix tx i) ∧ step w op = .ok (w', rc) ∧ Tracks D K b' w' := by
  have hop : ∀ tx i, op ≠ .ix tx i := by
    rintro tx i rfl
    cases h
  rw [outside_eq T.rep.env T.rep.clock T.rep.tk hop] at h
  have S := step_outside (w := w) hop
  cases h1 : step (strip w) op with
  | error e => rw [h1] at h; cases h
  | ok x =>
    obtain ⟨v, rc0⟩ := x
    rw [h1, ok_bind] at h
    simp only [bind_eq_ok, require_eq_ok, pure_eq_ok, exists_const] at h
    obtain ⟨h3, rfl⟩ := h
    rw [h1] at S
    cases h2 : step w op with
    | error e => rw [h2] at S; exact S.elim
    | ok y =>
      obtain ⟨w', rc⟩ := y
      rw [h2] at S
      obtain ⟨s1, s2, s3, s4, s5⟩ := S
      refine ⟨w', rc, hop, rfl, T.reach.step h2, s2 ▸ h3, fun k a u hu => T.named k a u ((s5 k a u).1 hu), ?_⟩
      exact ⟨T.rep.env.trans s4.symm, s2, s3, fun k a u hu => T.rep.data k a u ((s5 k a u).1 hu),
        fun a hn => T.rep.empty a fun k u hu => hn k u ((s5 k a u).2 hu)⟩

/-- All keys of the calls of a history have 32 bytes. -/
def BOp.Keyed : BOp → Prop
  | .call _ c => Spec.Keyed c
  | .outside _ => True

theorem Tracks.run {P : ProgIds} {D : Discs Kind} {DI : Discs IxName} {K : Keys} {ops : List BOp} :
    ∀ {b : Bank} {w : World}, Tracks D K b w → (∀ o ∈ ops, o.Keyed) →
      ∃ l, Tracks D K (brun P D DI K b ops) (Verif.run w l) := by
  induction ops with
  | nil => exact fun T _ => ⟨[], T⟩
  | cons o ops ih =>
    intro b w T hk
    have hk' : ∀ o ∈ ops, o.Keyed := fun o ho => hk o (List.mem_cons_of_mem _ ho)
    have ho := hk o List.mem_cons_self
    have keepT : ∀ {b'}, bapply P D DI K b o = b' → ∀ {w'} l0, w' = Verif.run w l0 → Tracks D K b' w' →
        ∃ l, Tracks D K (brun P D DI K b (o :: ops)) (Verif.run w l) := by
      rintro b' rfl w' l0 rfl T'
      obtain ⟨l, hl⟩ := ih T' hk'
      exact ⟨l0 ++ l, by rw [run_append]; exact hl⟩
    cases o with
    | call acc c =>
      cases h : process P D DI K b acc c with
      | error e => exact keepT (b' := b) (by simp only [bapply, h]) [] rfl T
      | ok x =>
        obtain ⟨b', rc⟩ := x
        obtain ⟨i, w', h1, T'⟩ := T.call ho h
        have h1' : step w (.ix ((c.raw K).tx acc) i) = .ok (w', rc) := h1
        exact keepT (b' := b') (by simp only [bapply, h]) [.ix ((c.raw K).tx acc) i]
          (by simp only [Verif.run, apply, h1']) T'
    | outside op =>
      cases h : b.outside op with
      | error e => exact keepT (b' := b) (by simp only [bapply, h]) [] rfl T
      | ok b' =>
        obtain ⟨w', rc, -, h1, T'⟩ := T.outside h
        exact keepT (b' := b') (by simp only [bapply, h]) [op] (by simp only [Verif.run, apply, h1]) T'


/-- The state an empty deployment stands for. -/
theorem BankGenesis.tracks {D : Discs Kind} {K : Keys} {b : Bank} (G : BankGenesis b) :
    ∃ w0, Genesis w0 ∧ Tracks D K b w0 := by
  let w0 : World :=
    { env := b.env, clock := b.clock, presales := fun _ => none, escrows := [], merkleRoots := fun _ => none,
      operators := fun _ => none, metadata := fun _ => none, fixedArgs := fun _ => none, tk := b.tk }
  have hn : ∀ k a v, ¬ Stored w0 k a v := by
    intro k a v h
    cases k <;> cases h
  have hg : Genesis w0 :=
    ⟨fun _ => rfl, rfl, fun _ => rfl, fun _ => rfl, fun _ => rfl, fun _ => rfl, G.vaults, G.amounts, G.mints⟩
  exact ⟨w0, hg, ⟨w0, [], hg, rfl⟩, G.clock, fun k a v h => (hn k a v h).elim,
    rfl, rfl, rfl, fun k a v h => (hn k a v h).elim, fun a _ => G.data a⟩

/-- **C81.** Whatever calls are made and whatever happens outside, starting from an empty deployment the bytes the
runtime keeps always stand for a reachable state. -/
theorem C81_sound (P : ProgIds) (D : Discs Kind) (DI : Discs IxName) (K : Keys) {b : Bank} (G : BankGenesis b)
    {ops : List BOp} (hk : ∀ o ∈ ops, o.Keyed) :
    ∃ w, Reachable w ∧ w.clock < (2 : Int) ^ 63 ∧ Named K w ∧ Represents D K (brun P D DI K b ops) w := by
  obtain ⟨w0, -, T⟩ := BankGenesis.tracks (D := D) (K := K) G
  obtain ⟨l, T'⟩ := T.run (P := P) (DI := DI) hk
  exact ⟨_, T'.reach, T'.clock, T'.named, T'.rep⟩

/-- **C81.** The state is determined by the bytes. -/
theorem C81_determined {D : Discs Kind} {K : Keys} {b : Bank} {w w' : World} (R : Reachable w) (R' : Reachable w')
    (hc : w.clock < (2 : Int) ^ 63) (N : Named K w) (N' : Named K w') (h : Represents D K b w)
    (h' : Represents D K b w') (k : Kind) (a : Addr) (v : k.Value) : Stored w k a v ↔ Stored w' k a v := by
  have hc' : w'.clock < (2 : Int) ^ 63 := by rw [← h'.clock, h.clock]; exact hc
  rw [← storedAs_iff, ← storedAs_iff, ← R.read_iff hc N h, ← R'.read_iff hc' N' h']

/-- The call a client makes, with keys as strings. -/
def clientWire (P : ProgIds) (DI : Discs IxName) (K : Keys) (i : Ix) : Wire :=
  { accounts := (Spec.metas P i).map fun m => ⟨K.enc m.key, m.signer, m.writable⟩, data := encodeCall DI K i.call }

theorem clientWire_keyed (P : ProgIds) (DI : Discs IxName) (K : Keys) (i : Ix) : Keyed (clientWire P DI K i) := by
  intro m hm
  obtain ⟨m0, -, rfl⟩ := List.mem_map.1 hm
  exact K.len _

theorem clientWire_raw {P : ProgIds} {DI : Discs IxName} {K : Keys} {i : Ix} (hk : ∀ x, Shows P i x → K.known x) :
    (clientWire P DI K i).raw K = clientCall P DI K i := by
  unfold Wire.raw clientWire clientCall
  simp only [List.map_map]
  congr 1
  refine (List.map_congr_left fun m hm => ?_).trans (List.map_id _)
  have : K.dec (K.enc m.key) = m.key := hk m.key (.inl (List.mem_map_of_mem hm))
  simp only [Function.comp, this, id]

/-- A successful step can be made on the bytes. -/
theorem Tracks.follow (P : ProgIds) {D : Discs Kind} (DI : Discs IxName) {K : Keys} {b : Bank} {w w' : World}
    (T : Tracks D K b w) {op : Op} {rc : Receipt} (h : step w op = .ok (w', rc)) (hc : w'.clock < (2 : Int) ^ 63)
    (hk : ∀ x, ShowsIn P [op] x → K.known x) :
    ∃ o : BOp, o.Keyed ∧ Tracks D K (bapply P D DI K b o) w' := by
  by_cases hop : ∀ tx i, op ≠ .ix tx i
  · refine ⟨.outside op, trivial, ?_⟩
    have S := step_outside (w := w) hop
    rw [h] at S
    cases h1 : step (strip w) op with
    | error e => rw [h1] at S; exact S.elim
    | ok x =>
      obtain ⟨v, rc0⟩ := x
      rw [h1] at S
      have ho : b.outside op = .ok { b with clock := v.clock, tk := v.tk } := by
        have : v.clock < (2 : Int) ^ 63 := S.2.1.symm ▸ hc
        rw [outside_eq T.rep.env T.rep.clock T.rep.tk hop, h1, ok_bind]
        simp only [require, if_pos this]
        rfl
      obtain ⟨w1, rc1, -, h2, T'⟩ := T.outside ho
      rw [h] at h2
      cases h2
      simp only [bapply, ho]
      exact T'
  · simp only [not_forall, not_not] at hop
    obtain ⟨tx, i, rfl⟩ := hop
    have hm : ∀ x, Shows P i x → K.known x := fun x hx => hk x ⟨tx, i, List.mem_cons_self, hx⟩
    have hi : execIx w tx i = .ok (w', rc) := h
    have hr := C67_sufficient P DI K (fun a e => hm a.presale (.inr ⟨a, e, rfl⟩)) hi
    rw [← clientWire_raw hm] at hr
    have S := C81_call P D DI K T.reach T.clock T.named T.rep tx.accept (clientWire P DI K i)
    rw [hr] at S
    refine ⟨.call tx.accept (clientWire P DI K i), clientWire_keyed P DI K i, ?_⟩
    cases h1 : process P D DI K b tx.accept (clientWire P DI K i) with
    | error e => rw [h1] at S; exact S.elim
    | ok x =>
      obtain ⟨b', rc'⟩ := x
      rw [h1] at S
      simp only [bapply, h1]
      exact ⟨C67_refines T.reach hr, hc, named_after T.reach hi T.named hm, S.2⟩


theorem brun_append (P : ProgIds) (D : Discs Kind) (DI : Discs IxName) (K : Keys) (b : Bank) (xs ys : List BOp) :
    brun P D DI K b (xs ++ ys) = brun P D DI K (brun P D DI K b xs) ys := by
  induction xs generalizing b with
  | nil => rfl
  | cons x xs ih => exact ih _


/-- A history of the ledger can be followed on the bytes. -/
theorem Tracks.follows (P : ProgIds) {D : Discs Kind} (DI : Discs IxName) {K : Keys} {b : Bank} {w : World}
    (T : Tracks D K b w) (ops : List Op) (hc : (Verif.run w ops).clock < (2 : Int) ^ 63)
    (hk : ∀ x, ShowsIn P ops x → K.known x) :
    ∃ l : List BOp, (∀ o ∈ l, o.Keyed) ∧ Tracks D K (brun P D DI K b l) (Verif.run w ops) := by
  induction ops generalizing b w with
  | nil => exact ⟨[], fun _ ho => (List.not_mem_nil ho).elim, T⟩
  | cons op ops ih =>
    have hk' : ∀ x, ShowsIn P ops x → K.known x := fun x ⟨tx, i, hm, hx⟩ =>
      hk x ⟨tx, i, List.mem_cons_of_mem _ hm, hx⟩
    cases hs : step w op with
    | error e =>
      have e1 : Verif.run w (op :: ops) = Verif.run w ops := by simp only [Verif.run, apply, hs]
      rw [e1] at hc ⊢
      exact ih T hc hk'
    | ok x =>
      obtain ⟨w', rc⟩ := x
      have e1 : Verif.run w (op :: ops) = Verif.run w' ops := by simp only [Verif.run, apply, hs]
      rw [e1] at hc ⊢
      obtain ⟨o, ho, T'⟩ := T.follow P DI hs (lt_of_le_of_lt (run_clock (T.reach.step hs).winv ops) hc) fun x ⟨tx, i, hm, hx⟩ =>
        hk x ⟨tx, i, by rw [List.mem_singleton.1 hm]; exact List.mem_cons_self, hx⟩
      obtain ⟨l, hl, hr⟩ := ih T' hc hk'
      refine ⟨o :: l, fun o' ho' => ?_, hr⟩
      rcases List.mem_cons.1 ho' with rfl | h
      · exact ho
      · exact hl o' h

/-- **C81.** Conversely every history of the ledger can be carried out on the bytes, by the calls clients make, as long as
the clock is an `i64` and the addresses it mentions have their own strings. -/
theorem C81_complete (P : ProgIds) (D : Discs Kind) (DI : Discs IxName) (K : Keys) {b : Bank} {w : World}
    (R : Reachable w) (N : Named K w) (h : Represents D K b w) (ops : List Op)
    (hc : (run w ops).clock < (2 : Int) ^ 63) (hk : ∀ x, ShowsIn P ops x → K.known x) :
    ∃ l : List BOp, (∀ o ∈ l, o.Keyed) ∧ Represents D K (brun P D DI K b l) (run w ops) := by
  have T : Tracks D K b w := ⟨R, lt_of_le_of_lt (run_clock R.winv ops) hc, N, h⟩
  obtain ⟨l, h1, h2⟩ := T.follows P DI ops hc hk
  exact ⟨l, h1, h2.rep⟩

/-- Bytes 8 to 200 of a presale: owner, quote mint, base mint, base vault, quote vault, base. -/
theorem presale_head (D : Discs Kind) (K : Keys) (v : Kind.presale.Value) :
    (writeAccount D K .presale v).take 200 = D.of .presale ++ (addresses .presale v).flatMap K.enc := by
  have e : ∃ rest, writeAccount D K .presale v = (D.of .presale ++ (addresses .presale v).flatMap K.enc) ++ rest := by
    refine ⟨((presaleCodec K).enc v).drop 192, ?_⟩
    have hl : ((addresses .presale v).flatMap K.enc).length = 192 := by simp [addresses, K.len]
    have h : ∃ r, (presaleCodec K).enc v = (addresses .presale v).flatMap K.enc ++ r := by
      obtain ⟨r, hr⟩ : ∃ r, (presaleCodec K).enc v = K.enc (Presale.owner v) ++ (K.enc (Presale.quoteMint v) ++
        (K.enc (Presale.baseMint v) ++ (K.enc (Presale.baseTokenVault v) ++ (K.enc (Presale.quoteTokenVault v) ++
          (K.enc (Presale.base v) ++ r))))) := ⟨_, rfl⟩
      refine ⟨r, hr.trans ?_⟩
      simp only [addresses, List.flatMap_cons, List.flatMap_nil, List.append_nil, List.append_assoc]
    obtain ⟨r, h⟩ := h
    rw [h, List.drop_left' hl, List.append_assoc, ← h]
    rfl
  obtain ⟨rest, e⟩ := e
  rw [e]
  refine List.take_left' ?_
  simp [addresses, D.len, K.len]

/-- **C81.** Once a presale account exists its first 200 bytes (discriminator, owner, mints, vaults, base key) stay as
they are, whatever calls are made. -/
theorem C81_identity_bytes (P : ProgIds) (D : Discs Kind) (DI : Discs IxName) (K : Keys) {b0 : Bank}
    (G : BankGenesis b0) {ops more : List BOp} (hk : ∀ o ∈ ops ++ more, o.Keyed) {a : Addr} {d : Bytes}
    (hd : (brun P D DI K b0 ops).data a = some d) (hp : d.take 8 = D.of .presale) :
    ∃ d', (brun P D DI K b0 (ops ++ more)).data a = some d' ∧ d'.take 200 = d.take 200 ∧ d'.length = d.length := by
  obtain ⟨w0, -, T0⟩ := BankGenesis.tracks (D := D) (K := K) G
  obtain ⟨l, T⟩ := T0.run (P := P) (DI := DI) (ops := ops) fun o ho => hk o (List.mem_append_left _ ho)
  obtain ⟨l', T'⟩ := T.run (P := P) (DI := DI) (ops := more) fun o ho => hk o (List.mem_append_right _ ho)
  rw [brun_append]
  generalize brun P D DI K b0 ops = b at hd T T' ⊢
  generalize run w0 l = w at T T'
  by_cases hs : ∃ k v, Stored w k a v
  · obtain ⟨k, v, hs⟩ := hs
    have e := T.rep.data k a v hs
    rw [hd, Option.some.injEq] at e
    have hkind : k = .presale := by
      apply D.inj
      rw [← hp, e, writeAccount, List.take_left' (D.len k)]
    subst hkind
    obtain ⟨v', hs2⟩ : ∃ v', Stored (run w l') .presale a v' :=
      (C32_terms_immutable T.reach hs l').imp fun _ h => h.1
    refine ⟨_, T'.rep.data .presale a v' hs2, ?_, ?_⟩
    · rw [e, presale_head, presale_head,
        addresses_kept T.reach T'.reach ⟨l', rfl⟩ hs hs2 (fun h => by cases h)]
    · have c64 : ∀ {w : World}, w.clock < (2 : Int) ^ 63 → w.clock < (2 : Int) ^ 64 := fun h => lt_trans h (by norm_num)
      have h1 := stored_valid T.reach (c64 T.clock) hs (T.named _ _ _ hs)
      have h2 := stored_valid T'.reach (c64 T'.clock) hs2 (T'.named _ _ _ hs2)
      unfold writeAccount at e ⊢
      rw [e, List.length_append, List.length_append]
      exact congrArg _ (((presaleCodec_sized K).enc v' h2).trans ((presaleCodec_sized K).enc v h1).symm)
  · rw [T.rep.empty a fun k v hv => hs ⟨k, v, hv⟩] at hd
    cases hd


/-! ## Examples -/

/-- Addresses in Alice's deposit. -/
def depositNames : List Addr :=
  ((aliceDeposit.accounts.map Meta.key) ++
    ((Ex.prorataOpen.presales Ex.sale).map (fun p => addresses .presale p)).getD []).dedup

/-- Their strings. -/
def depositKeys : Keys := Keys.ofList depositNames (List.nodup_dedup _)

/-- The bytes of a ledger. -/
def bankOf (w : World) : Bank :=
  { env := w.env, clock := w.clock, data := w.dataAt exampleDiscs depositKeys, tk := w.tk }

/-- Alice's deposit of 100. -/
def depositWire : Wire :=
  clientWire exampleIds exampleSelectors depositKeys (.deposit (Ex.depositAcc Ex.alice Ex.aliceQuote 100))

/-- Bytes of an account before and after a call. -/
def bytesAfter (b : Bank) (c : Wire) (a : Addr) : Option (Bytes × Bytes) :=
  match process exampleIds exampleDiscs exampleSelectors depositKeys b true c with
  | .ok (b', _) => (b.data a).bind fun d => (b'.data a).map fun d' => (d, d')
  | .error _ => none

/-- The deposit runs on bytes; eight bytes of the escrow hold 100 more than before. -/
example : (bytesAfter (bankOf Ex.prorataOpen) depositWire (Ex.escrowOf Ex.alice)).map
    (fun x => (x.1.length, x.2.length, leNat ((x.1.drop 72).take 8), leNat ((x.2.drop 72).take 8))) =
      some (200, 200, 900, 1000) := by decide +kernel

/-- Addresses of a history as a list. -/
def namesOf (P : ProgIds) (ops : List Op) : List Addr :=
  ops.flatMap fun
    | .ix _ (.initFixedArgs y) => y.presale :: (Spec.metas P (.initFixedArgs y)).map Meta.key
    | .ix _ i => (Spec.metas P i).map Meta.key
    | _ => []

theorem mem_namesOf {P : ProgIds} {ops : List Op} {x : Addr} (h : ShowsIn P ops x) : x ∈ namesOf P ops := by
  obtain ⟨tx, i, hm, hx⟩ := h
  refine List.mem_flatMap.2 ⟨_, hm, ?_⟩
  rcases hx with hx | ⟨y, rfl, rfl⟩
  · cases i
    case initFixedArgs y => exact List.mem_cons_of_mem _ hx
    all_goals exact hx
  · exact List.mem_cons_self

/-- A sale with two escrows and two deposits, and one with a fixed price, carried out on bytes from an empty deployment:
the hypotheses of `C81_complete` and `C81_sound` can be met. -/
example : ∀ ops ∈ [Ex.prorataOps, Ex.fixedOps], ∃ (K : Keys) (b : Bank) (l : List BOp), BankGenesis b ∧
    (∀ o ∈ l, o.Keyed) ∧
    Represents exampleDiscs K (brun exampleIds exampleDiscs exampleSelectors K b l) (run Ex.genesis ops) := by
  intro ops hops
  simp only [List.mem_cons, List.not_mem_nil, or_false] at hops
  have hn : (namesOf exampleIds ops).dedup.length ≤ 256 ^ 32 := by
    rcases hops with rfl | rfl <;> decide +kernel
  have hc : (run Ex.genesis ops).clock < (2 : Int) ^ 63 := by
    rcases hops with rfl | rfl <;> decide +kernel
  let b : Bank := { env := Ex.genesis.env, clock := Ex.genesis.clock, data := fun _ => none, tk := Ex.genesis.tk }
  have G := Ex.genesis_ok
  have hno : ∀ k a v, ¬ Stored Ex.genesis k a v := by
    intro k a v h
    cases k <;> cases h
  let K := Keys.ofList (namesOf exampleIds ops).dedup (List.nodup_dedup _)
  have rep : Represents exampleDiscs K b Ex.genesis :=
    ⟨rfl, rfl, rfl, fun k a v h => (hno k a v h).elim, fun _ _ => rfl⟩
  obtain ⟨l, h1, h2⟩ := C81_complete exampleIds exampleDiscs exampleSelectors K ⟨_, [], G, rfl⟩
    (fun k a v h => (hno k a v h).elim) rep ops hc
    fun x hx => Keys.ofList_known _ hn (List.mem_dedup.2 (mem_namesOf hx))
  exact ⟨K, b, l, ⟨fun _ => rfl, G.vaults, G.amounts, G.mints, by decide⟩, h1, h2⟩

end Verif
