import Verif.Lemmas.Maps
import Verif.Props.TransferFee
/-!
# Effect of token transfers and burns
-/

namespace Verif

/-- Everything that holds of a successful `transfer_from_user` / `transfer_from_presale_to_user`. -/
structure TransferFacts (k : Tokens) (authority mint src dst : Addr) (prog : TokenProgram) (amount : Nat)
    (hooks : Option (List Addr)) (accept : Bool) (k' : Tokens) (cpi : Cpi)
    (s d : TokAcct) (m : MintInfo) (dlg : Option (Addr × Nat)) : Prop where
  hs : k.toks src = some s
  hm : k.mints mint = some m
  hd : k.toks dst = some d
  hook : checkHookAccounts m hooks = .ok ()
  prog : m.program = prog
  smint : s.mint = mint
  dmint : d.mint = mint
  sfrozen : s.frozen = false
  dfrozen : d.frozen = false
  enough : amount ≤ s.amount
  auth : authorizeSpend s authority amount = .ok dlg
  acc : accept = true
  room : src ≠ dst → d.amount + (amount - m.transferFee amount) < u64Bound
  cpi : cpi = .transfer mint src dst authority amount (m.transferFee amount)
  post : k' = if src = dst then k else
    { k with toks := upd (upd k.toks src (some { s with amount := s.amount - amount, delegate := dlg }))
                      dst (some { d with amount := d.amount + (amount - m.transferFee amount) }) }

theorem transferTokens_iff {k : Tokens} {authority mint src dst : Addr} {prog : TokenProgram} {amount : Nat}
    {hooks : Option (List Addr)} {accept : Bool} {k' : Tokens} {cpi : Cpi} :
    transferTokens k authority mint src dst prog amount hooks accept = .ok (k', cpi) ↔
      ∃ s d m dlg, TransferFacts k authority mint src dst prog amount hooks accept k' cpi s d m dlg := by
  unfold transferTokens transferChecked
  constructor
  · intro h
    cases hm : k.mints mint with
    | none => rw [hm] at h; simp at h
    | some m =>
      rw [hm] at h
      cases hs : k.toks src with
      | none => rw [hs] at h; simp [bind_eq_ok] at h
      | some s =>
        cases hd : k.toks dst with
        | none => rw [hs, hd] at h; simp [bind_eq_ok] at h
        | some d =>
          rw [hs, hd] at h
          simp only [bind_eq_ok, require_eq_ok] at h
          obtain ⟨u, h1, _, h2, _, ⟨h3, h3'⟩, _, ⟨h4, h4'⟩, _, h5, dlg, h6, _, h7, h8⟩ := h
          refine ⟨s, d, m, dlg, hs, hm, hd, h1, h2, h3, h3', h4, h4', h5, h6, h7, ?_, ?_, ?_⟩
          · intro hne
            rw [if_neg hne] at h8
            simp only [bind_eq_ok, require_eq_ok] at h8
            obtain ⟨_, h8, _⟩ := h8
            exact h8
          · split at h8
            · simp only [pure_eq_ok, Prod.mk.injEq] at h8; exact h8.2.symm
            · simp only [bind_eq_ok, require_eq_ok, pure_eq_ok, Prod.mk.injEq] at h8
              obtain ⟨_, _, _, h8⟩ := h8
              exact h8.symm
          · split at h8
            · next he =>
              simp only [pure_eq_ok, Prod.mk.injEq] at h8; rw [if_pos he]; exact h8.1.symm
            · next he =>
              simp only [bind_eq_ok, require_eq_ok, pure_eq_ok, Prod.mk.injEq] at h8
              rw [if_neg he]
              obtain ⟨_, _, h8, _⟩ := h8
              exact h8.symm
  · rintro ⟨s, d, m, dlg, F⟩
    obtain ⟨hs, hm, hd, h1, h2, h3, h3', h4, h4', h5, h6, h7, h8, h9, h10⟩ := F
    rw [hm, hs, hd]
    simp only
    rw [h1, ok_bind, require_ok h2, ok_bind, require_ok ⟨h3, h3'⟩, ok_bind, require_ok ⟨h4, h4'⟩, ok_bind,
      require_ok h5, ok_bind, h6, ok_bind, require_ok h7, ok_bind]
    by_cases he : src = dst
    · rw [if_pos he, pure_eq_ok, h9, h10, if_pos he]
    · rw [if_neg he, require_ok (h8 he), ok_bind, pure_eq_ok, h9, h10, if_neg he]

/-- Everything that holds of a successful burn. -/
structure BurnFacts (k : Tokens) (prog : TokenProgram) (src mint authority : Addr) (amount : Nat)
    (k' : Tokens) (cpi : Cpi) (s : TokAcct) (m : MintInfo) (dlg : Option (Addr × Nat)) : Prop where
  hs : k.toks src = some s
  hm : k.mints mint = some m
  prog : m.program = prog
  smint : s.mint = mint
  sfrozen : s.frozen = false
  native : m.isNative = false
  enough : amount ≤ s.amount
  auth : authorizeSpend s authority amount = .ok dlg
  supply : amount ≤ m.supply
  cpi : cpi = .burn mint src amount
  post : k' = { toks := upd k.toks src (some { s with amount := s.amount - amount, delegate := dlg }),
                mints := upd k.mints mint (some { m with supply := m.supply - amount }) }

theorem burnTokens_iff {k : Tokens} {authority mint src : Addr} {prog : TokenProgram} {amount : Nat}
    {k' : Tokens} {cpi : Cpi} :
    burnTokens k prog src mint authority amount = .ok (k', cpi) ↔
      ∃ s m dlg, BurnFacts k prog src mint authority amount k' cpi s m dlg := by
  unfold burnTokens
  constructor
  · intro h
    cases hs : k.toks src with
    | none => rw [hs] at h; simp at h
    | some s =>
      cases hm : k.mints mint with
      | none => rw [hs, hm] at h; simp at h
      | some m =>
        rw [hs, hm] at h
        simp only [bind_eq_ok, require_eq_ok, pure_eq_ok, Prod.mk.injEq] at h
        obtain ⟨_, h1, _, h2, _, h3, _, h4, _, h5, dlg, h6, _, h7, h8, h9⟩ := h
        exact ⟨s, m, dlg, hs, hm, h1, h2, h3, h4, h5, h6, h7, h9.symm, h8.symm⟩
  · rintro ⟨s, m, dlg, F⟩
    obtain ⟨hs, hm, h1, h2, h3, h4, h5, h6, h7, h8, h9⟩ := F
    rw [hs, hm]
    simp only
    rw [require_ok h1, ok_bind, require_ok h2, ok_bind, require_ok h3, ok_bind, require_ok h4, ok_bind,
      require_ok h5, ok_bind, h6, ok_bind, require_ok h7, ok_bind, pure_eq_ok, h8, h9]

/-- A spend by someone who is neither owner nor delegate is refused; a spend of an account without
delegate keeps it without delegate. -/
theorem authorizeSpend_ok {t : TokAcct} {authority : Addr} {amount : Nat} {dlg : Option (Addr × Nat)}
    (h : authorizeSpend t authority amount = .ok dlg) :
    (t.owner = authority ∨ ∃ n, t.delegate = some (authority, n) ∧ amount ≤ n) ∧
      (t.delegate = none → dlg = none) := by
  unfold authorizeSpend at h
  split at h
  · next d n hd =>
    split at h
    · next he =>
      split at h
      · simp at h
      · next hn => subst he; exact ⟨Or.inr ⟨n, hd, by omega⟩, by intro h0; rw [hd] at h0; cases h0⟩
    · split at h
      · next ho => exact ⟨Or.inl ho, by intro h0; rw [hd] at h0; cases h0⟩
      · simp at h
  · next hd =>
    split at h
    · next ho => exact ⟨Or.inl ho, fun _ => by simpa using h.symm⟩
    · simp at h

theorem authorizeSpend_owner {t : TokAcct} {authority : Addr} {amount : Nat} (h : t.owner = authority)
    (hd : t.delegate = none) : authorizeSpend t authority amount = .ok none := by
  unfold authorizeSpend
  rw [hd]
  simp [h]

/-- What any token movement caused by an instruction does to all token accounts: accounts neither
appear nor disappear, keep mint and owner, gain no delegate, and only the source loses tokens. -/
structure Moved (k k' : Tokens) (src : Addr) (amount : Nat) : Prop where
  keep : ∀ x t, k.toks x = some t → ∃ t', k'.toks x = some t' ∧ t'.mint = t.mint ∧ t'.owner = t.owner ∧
    (t.delegate = none → t'.delegate = none) ∧ t'.frozen = t.frozen ∧
    t.amount ≤ t'.amount + (if x = src then amount else 0)
  none : ∀ x, k.toks x = none → k'.toks x = none
  range : (∀ x t, k.toks x = some t → t.amount < u64Bound) →
    ∀ x t, k'.toks x = some t → t.amount < u64Bound
  mints : ∀ x m, k.mints x = some m → ∃ m', k'.mints x = some m' ∧ m'.program = m.program ∧
    m'.isNative = m.isNative ∧ m'.exts = m.exts ∧ m'.fee = m.fee ∧ m'.hook = m.hook ∧ m'.supply ≤ m.supply
  mintsNone : ∀ x, k.mints x = .none → k'.mints x = .none

theorem Moved.refl (k : Tokens) (src : Addr) : Moved k k src 0 where
  keep := by intro x t h; exact ⟨t, h, rfl, rfl, id, rfl, by simp⟩
  none := by intro x h; exact h
  range := by intro h; exact h
  mints := by intro x m h; exact ⟨m, h, rfl, rfl, rfl, rfl, rfl, Nat.le_refl _⟩
  mintsNone := by intro x h; exact h

theorem TransferFacts.moved {k : Tokens} {authority mint src dst : Addr} {prog : TokenProgram} {amount : Nat}
    {hooks : Option (List Addr)} {accept : Bool} {k' : Tokens} {cpi : Cpi} {s d : TokAcct} {m : MintInfo}
    {dlg : Option (Addr × Nat)}
    (F : TransferFacts k authority mint src dst prog amount hooks accept k' cpi s d m dlg) :
    Moved k k' src amount := by
  have hpost := F.post
  by_cases he : src = dst
  · rw [if_pos he] at hpost
    subst hpost
    have := Moved.refl k' src
    exact ⟨fun x t h => by
      obtain ⟨t', h1, h2, h3, h4, h5, h6⟩ := this.keep x t h
      refine ⟨t', h1, h2, h3, h4, h5, ?_⟩
      split at h6 <;> split <;> omega, this.none, this.range, this.mints, this.mintsNone⟩
  · rw [if_neg he] at hpost
    subst hpost
    refine ⟨?_, ?_, ?_, ?_, fun x h => h⟩
    · intro x t hx
      by_cases hxd : x = dst
      · subst hxd
        rw [F.hd] at hx; cases hx
        refine ⟨_, upd_self _ _ _, rfl, rfl, id, rfl, ?_⟩
        simp only; omega
      · by_cases hxs : x = src
        · subst hxs
          rw [F.hs] at hx; cases hx
          refine ⟨{ s with amount := s.amount - amount, delegate := dlg }, ?_, rfl, rfl,
            (authorizeSpend_ok F.auth).2, rfl, ?_⟩
          · simp only [upd_other _ _ hxd, upd_self]
          · have := F.enough
            simp only [if_true]; omega
        · refine ⟨t, ?_, rfl, rfl, id, rfl, by omega⟩
          simp only [upd_other _ _ hxd, upd_other _ _ hxs]; exact hx
    · intro x hx
      have h1 : x ≠ dst := by rintro rfl; rw [F.hd] at hx; cases hx
      have h2 : x ≠ src := by rintro rfl; rw [F.hs] at hx; cases hx
      simp only [upd_other _ _ h1, upd_other _ _ h2]; exact hx
    · intro hr x t hx
      simp only [upd_apply] at hx
      split at hx
      · cases hx; exact F.room he
      · split at hx
        · cases hx; have := hr _ _ F.hs; simp only; omega
        · exact hr _ _ hx
    · intro x m' h; exact ⟨m', h, rfl, rfl, rfl, rfl, rfl, Nat.le_refl _⟩

theorem BurnFacts.moved {k : Tokens} {authority mint src : Addr} {prog : TokenProgram} {amount : Nat}
    {k' : Tokens} {cpi : Cpi} {s : TokAcct} {m : MintInfo} {dlg : Option (Addr × Nat)}
    (F : BurnFacts k prog src mint authority amount k' cpi s m dlg) : Moved k k' src amount := by
  have hpost := F.post
  subst hpost
  refine ⟨?_, ?_, ?_, ?_, ?_⟩
  · intro x t hx
    by_cases hxs : x = src
    · subst hxs
      rw [F.hs] at hx; cases hx
      refine ⟨_, upd_self _ _ _, rfl, rfl, (authorizeSpend_ok F.auth).2, rfl, ?_⟩
      have := F.enough
      simp only [if_true]; omega
    · refine ⟨t, ?_, rfl, rfl, id, rfl, by omega⟩
      simp only [upd_other _ _ hxs]; exact hx
  · intro x hx
    have h2 : x ≠ src := by rintro rfl; rw [F.hs] at hx; cases hx
    simp only [upd_other _ _ h2]; exact hx
  · intro hr x t hx
    simp only [upd_apply] at hx
    split at hx
    · cases hx; have := hr _ _ F.hs; simp only; omega
    · exact hr _ _ hx
  · intro x m' h
    by_cases hx : x = mint
    · subst hx
      rw [F.hm] at h; cases h
      exact ⟨_, upd_self _ _ _, rfl, rfl, rfl, rfl, rfl, Nat.sub_le _ _⟩
    · refine ⟨m', ?_, rfl, rfl, rfl, rfl, rfl, Nat.le_refl _⟩
      simp only [upd_other _ _ hx]; exact h
  · intro x h
    have h2 : x ≠ mint := by rintro rfl; rw [F.hm] at h; cases h
    simp only [upd_other _ _ h2]; exact h

/-- Exact balances after a transfer between different accounts. -/
theorem TransferFacts.exact {k : Tokens} {authority mint src dst : Addr} {prog : TokenProgram} {amount : Nat}
    {hooks : Option (List Addr)} {accept : Bool} {k' : Tokens} {cpi : Cpi} {s d : TokAcct} {m : MintInfo}
    {dlg : Option (Addr × Nat)}
    (F : TransferFacts k authority mint src dst prog amount hooks accept k' cpi s d m dlg) (hne : src ≠ dst) :
    k'.toks src = some { s with amount := s.amount - amount, delegate := dlg } ∧
    k'.toks dst = some { d with amount := d.amount + (amount - m.transferFee amount) } ∧
    (∀ x, x ≠ src → x ≠ dst → k'.toks x = k.toks x) ∧ k'.mints = k.mints := by
  have hpost := F.post
  rw [if_neg hne] at hpost
  subst hpost
  refine ⟨?_, upd_self _ _ _, ?_, rfl⟩
  · simp only [upd_other _ _ hne, upd_self]
  · intro x h1 h2; simp only [upd_other _ _ h1, upd_other _ _ h2]

/-- Only ordinary keys sign. -/
theorem signed_isKey {tx : Tx} {a : Addr} (h : tx.signed a = true) : ∃ n, a = .key n := by
  unfold Tx.signed Addr.isKey at h
  cases a <;> simp_all

theorem signed_mem {tx : Tx} {a : Addr} (h : tx.signed a = true) : a ∈ tx.signers := by
  unfold Tx.signed at h
  simp at h
  exact h.1

end Verif
