import Verif.SpecMachine
import Verif.Lemmas.Accept
import Verif.Lemmas.Flow
import Verif.Lemmas.End
/-!
# The token program and the handlers' checks in the terms of the reference semantics
-/

namespace Verif
open Spec

/-! ## Token transfers -/

theorem allowance_iff {t : TokAcct} {who : Addr} {n : Nat} {dlg : Option (Addr × Nat)} :
    authorizeSpend t who n = .ok dlg ↔ CanSpend t who n ∧ dlg = allowanceLeft t who n := by
  rw [← authorize_iff]
  have key : ∀ d', authorizeSpend t who n = .ok d' → d' = allowanceLeft t who n := by
    intro d' h
    unfold authorizeSpend at h
    unfold allowanceLeft
    cases hd : t.delegate with
    | none =>
      rw [hd] at h
      simp only at h ⊢
      split at h <;> cases h
      rfl
    | some x =>
      obtain ⟨d, k⟩ := x
      rw [hd] at h
      simp only at h ⊢
      by_cases he : d = who
      · rw [if_pos he] at h ⊢
        by_cases hk : k < n
        · rw [if_pos hk] at h; cases h
        · rw [if_neg hk] at h; cases h
          by_cases hz : n = k
          · rw [if_pos hz, if_pos (by omega)]
          · rw [if_neg hz, if_neg (by omega)]
      · rw [if_neg he] at h ⊢
        split at h <;> cases h
        rfl
  constructor
  · intro h; exact ⟨⟨_, h⟩, key _ h⟩
  · rintro ⟨⟨d', h⟩, rfl⟩; rw [h, ← key _ h]

/-- Parsing the hook accounts and transferring, in one. -/
theorem move_iff {k : Tokens} {who mint src dst : Addr} {prog : TokenProgram} {n : Nat} {kind : AccountsType}
    {passed : List Addr} {slices : List RemSlice} {accept : Bool} {k' : Tokens} :
    (∃ hooks rest cpi, parseHooks passed slices [kind] = .ok (hooks, rest) ∧
      transferTokens k who mint src dst prog n (hooks.get kind) accept = .ok (k', cpi)) ↔
    accept = true ∧ ∃ m s d, k.mints mint = some m ∧ HooksExact kind m passed slices ∧ m.program = prog ∧
      k.toks src = some s ∧ s.mint = mint ∧ s.frozen = false ∧ n ≤ s.amount ∧ CanSpend s who n ∧
      k.toks dst = some d ∧ d.mint = mint ∧ d.frozen = false ∧
      (src ≠ dst → d.amount + (n - m.transferFee n) < 2 ^ 64) ∧
      k' = if src = dst then k else { k with
        toks := upd (upd k.toks src (some { s with amount := s.amount - n, delegate := allowanceLeft s who n })) dst
          (some { d with amount := d.amount + (n - m.transferFee n) }) } := by
  constructor
  · rintro ⟨hooks, rest, cpi, hp, ht⟩
    obtain ⟨s, d, m, dlg, T⟩ := transferTokens_iff.1 ht
    obtain ⟨a1, a2⟩ := allowance_iff.1 T.auth
    have hroom := T.room
    rw [u64Bound_eq] at hroom
    have hpost := T.post
    subst a2
    exact ⟨T.acc, m, s, d, T.hm, hooks_iff.1 ⟨_, _, hp, T.hook⟩, T.prog, T.hs, T.smint, T.sfrozen, T.enough, a1, T.hd,
      T.dmint, T.dfrozen, hroom, hpost⟩
  · rintro ⟨ha, m, s, d, hm, hh, hprog, hs, hsm, hsf, hen, hcan, hd, hdm, hdf, hroom, hpost⟩
    obtain ⟨hooks, rest, hp, hc⟩ := hooks_iff.2 hh
    have hroom : src ≠ dst → d.amount + (n - m.transferFee n) < u64Bound := by rw [u64Bound_eq]; exact hroom
    exact ⟨hooks, rest, _, hp, transferTokens_iff.2 ⟨s, d, m, _, hs, hm, hd, hc, hprog, hsm, hdm, hsf, hdf, hen,
      allowance_iff.2 ⟨hcan, rfl⟩, ha, hroom, rfl, hpost⟩⟩

/-- Payment into a vault. -/
theorem charge_iff {w : World} (C : Core w) {tx : Tx} {who mint src vault : Addr} {prog : TokenProgram} {n : Nat}
    {kind : AccountsType} {passed : List Addr} {slices : List RemSlice} {k' : Tokens} {v : TokAcct}
    (hvault : vault.isVault = true) (hv : w.tk.toks vault = some v) (hvm : v.mint = mint)
    (hsigned : tx.signed who = true) :
    (∃ hooks rest cpi, parseHooks passed slices [kind] = .ok (hooks, rest) ∧
      transferTokens w.tk who mint src vault prog n (hooks.get kind) tx.accept = .ok (k', cpi)) ↔
    HooksRight w.tk kind mint passed slices ∧ Charged w.tk tx who mint src vault prog n k' := by
  obtain ⟨ho, hd⟩ := C.vaults _ _ hvault hv
  have hwho : who ≠ .presaleAuthority := by rintro rfl; exact signed_not_authority hsigned
  rw [move_iff]
  constructor
  · rintro ⟨ha, m, s, d, hm, hh, hprog, hs, hsm, hsf, hen, hcan, hd', hdm, hdf, hroom, hpost⟩
    have hne : src ≠ vault := by
      rintro rfl
      rw [hv] at hs; cases hs
      rcases hcan with ⟨k, h1, _⟩ | ⟨h1, _⟩
      · rw [hd] at h1; cases h1
      · exact hwho (h1 ▸ ho)
    rw [if_neg hne] at hpost
    exact ⟨⟨m, hm, hh⟩, ha, m, s, d, hm, hprog, hs, hsm, hsf, hen, hcan, hd', hdf, hroom hne, hpost⟩
  · rintro ⟨⟨m0, hm0, hh⟩, ha, m, s, d, hm, hprog, hs, hsm, hsf, hen, hcan, hd', hdf, hroom, hpost⟩
    rw [hm0] at hm; cases hm
    rw [hv] at hd'; cases hd'
    have hne : src ≠ vault := by
      rintro rfl
      rw [hv] at hs; cases hs
      rcases hcan with ⟨k, h1, _⟩ | ⟨h1, _⟩
      · rw [hd] at h1; cases h1
      · exact hwho (h1 ▸ ho)
    exact ⟨ha, m0, s, v, hm0, hh, hprog, hs, hsm, hsf, hen, hcan, hv, hvm, hdf, fun _ => hroom,
      by rw [if_neg hne]; exact hpost⟩

/-- Payment out of a vault that holds enough. -/
theorem payout_iff {w : World} (C : Core w) {tx : Tx} {mint vault dst : Addr} {prog : TokenProgram} {n : Nat}
    {kind : AccountsType} {passed : List Addr} {slices : List RemSlice} {k' : Tokens} {v : TokAcct}
    (hvault : vault.isVault = true) (hv : w.tk.toks vault = some v) (hvm : v.mint = mint) (hn : n ≤ v.amount) :
    (∃ hooks rest cpi, parseHooks passed slices [kind] = .ok (hooks, rest) ∧
      transferTokens w.tk .presaleAuthority mint vault dst prog n (hooks.get kind) tx.accept = .ok (k', cpi)) ↔
    HooksRight w.tk kind mint passed slices ∧ PaidOut w.tk tx mint vault dst prog n k' := by
  obtain ⟨ho, hdel⟩ := C.vaults _ _ hvault hv
  have hcan : CanSpend v .presaleAuthority n := .inr ⟨ho, by intro k; rw [hdel]; simp⟩
  have hleft : allowanceLeft v .presaleAuthority n = v.delegate := by unfold allowanceLeft; rw [hdel]
  rw [move_iff]
  constructor
  · rintro ⟨ha, m, s, d, hm, hh, hprog, hs, hsm, hsf, hen, _, hd', hdm, hdf, hroom, hpost⟩
    rw [hv] at hs; cases hs
    refine ⟨⟨m, hm, hh⟩, ha, m, v, d, hm, hprog, hv, hsf, hd', hdm, hdf, ?_⟩
    by_cases hne : vault = dst
    · rw [if_pos hne] at hpost; exact .inl ⟨hne, hpost⟩
    · rw [if_neg hne, hleft] at hpost; exact .inr ⟨hne, hroom hne, hpost⟩
  · rintro ⟨⟨m0, hm0, hh⟩, ha, m, s, d, hm, hprog, hs, hsf, hd', hdm, hdf, hpost⟩
    rw [hm0] at hm; cases hm
    rw [hv] at hs; cases hs
    refine ⟨ha, m0, v, d, hm0, hh, hprog, hv, hvm, hsf, hn, hcan, hd', hdm, hdf, ?_, ?_⟩
    · intro hne
      rcases hpost with ⟨h, _⟩ | ⟨_, h, _⟩
      · exact absurd h hne
      · exact h
    · rcases hpost with ⟨h, hk⟩ | ⟨hne, _, hk⟩
      · rw [if_pos h]; exact hk
      · rw [if_neg hne, hleft]; exact hk

/-- Burning from a vault that holds enough. -/
theorem burn_iff {w : World} (C : Core w) {mint vault : Addr} {prog : TokenProgram} {n : Nat} {k' : Tokens}
    {v : TokAcct} (hvault : vault.isVault = true) (hv : w.tk.toks vault = some v) (hvm : v.mint = mint)
    (hn : n ≤ v.amount) :
    (∃ cpi, burnTokens w.tk prog vault mint .presaleAuthority n = .ok (k', cpi)) ↔
    BurntOut w.tk mint vault prog n k' := by
  obtain ⟨ho, hdel⟩ := C.vaults _ _ hvault hv
  have hcan : CanSpend v .presaleAuthority n := .inr ⟨ho, by intro k; rw [hdel]; simp⟩
  have hleft : allowanceLeft v .presaleAuthority n = v.delegate := by unfold allowanceLeft; rw [hdel]
  constructor
  · rintro ⟨cpi, h⟩
    obtain ⟨s, m, dlg, B⟩ := burnTokens_iff.1 h
    obtain ⟨_, a2⟩ := allowance_iff.1 B.auth
    have hs := B.hs
    rw [hv] at hs; cases hs
    have hpost := B.post
    rw [a2, hleft] at hpost
    exact ⟨m, v, B.hm, B.prog, B.native, B.supply, hv, B.sfrozen, hpost⟩
  · rintro ⟨m, s, hm, hprog, hnat, hsup, hs, hsf, hpost⟩
    rw [hv] at hs; cases hs
    exact ⟨_, burnTokens_iff.2 ⟨v, m, _, hv, hm, hprog, hvm, hsf, hnat, hn, allowance_iff.2 ⟨hcan, rfl⟩, hsup, rfl,
      by rw [hleft]; exact hpost⟩⟩

/-- Parsing alone. -/
theorem readable_iff {kind : AccountsType} {rem : List Addr} {slices : List RemSlice} :
    (∃ hooks rest, parseHooks rem slices [kind] = .ok (hooks, rest)) ↔ HooksReadable kind rem slices := by
  constructor
  · rintro ⟨hooks, rest, hp⟩
    obtain ⟨h1, h2, h3⟩ := (C43_parse_accepts_iff rem slices [kind]).1 ⟨_, hp⟩
    have hk : ∀ s ∈ slices, s.accountsType = kind := fun s hs => by simpa using h1 s hs
    refine ⟨hk, h2, ?_⟩
    have := h3 kind
    have e : slices.filter (fun s => s.accountsType = kind ∧ s.length ≠ 0) =
        slices.filter (fun s => s.length ≠ 0) := by
      apply List.filter_congr
      intro s hs
      simp [hk s hs]
    rwa [e] at this
  · rintro ⟨hk, he, hc⟩
    obtain ⟨⟨hooks, rest⟩, hp⟩ := (C43_parse_accepts_iff rem slices [kind]).2 ⟨fun s hs => by simp [hk s hs], he, by
      intro k
      have e : slices.filter (fun s => s.accountsType = k ∧ s.length ≠ 0) =
          (slices.filter (fun s => s.length ≠ 0)).filter (fun s => s.accountsType = k) := by
        rw [List.filter_filter]; congr 1; funext s; simp
      rw [e]
      exact Nat.le_trans (List.length_filter_le _ _) hc⟩
    exact ⟨hooks, rest, hp⟩

/-! ## Phases and modes -/

theorem Sale.progress_early {now : Int} {es : AMap Addr Escrow} {tk : Tokens} {a : Addr} {p : Presale}
    (S : Sale now es tk a p) : (p.getPresaleProgress now.toNat = .notStarted ∨
      p.getPresaleProgress now.toNat = .ongoing) ↔ ¬ Over p now := by
  have := S.clock
  have := S.pinv.sched.order
  rw [Verif.progress_ongoing, progress_notStarted]
  unfold Over
  omega

theorem whitelist_of {b : Nat} {m : WhitelistMode} (h : castWhitelistMode b = .ok m) :
    (b = 1 ∧ m = .permissionWithMerkleProof) ∨ (b = 2 ∧ m = .permissionWithAuthority) ∨
    (b ≠ 1 ∧ b ≠ 2 ∧ m = .permissionless) := by
  unfold castWhitelistMode WhitelistMode.tryFrom at h
  split at h
  · next m' hm =>
    cases h
    split at hm <;> simp_all
  · cases h

theorem Static.whitelist_cases {a : Addr} {p : Presale} (S : Static a p) :
    (castWhitelistMode p.whitelistMode = .ok .permissionWithMerkleProof ↔ p.whitelistMode = 1) ∧
    (castWhitelistMode p.whitelistMode = .ok .permissionWithAuthority ↔ p.whitelistMode = 2) ∧
    (castWhitelistMode p.whitelistMode = .ok .permissionless ↔ ¬ (p.whitelistMode = 1 ∨ p.whitelistMode = 2)) := by
  obtain ⟨m, hm⟩ := S.whitelist
  rcases whitelist_of hm with ⟨h, rfl⟩ | ⟨h, rfl⟩ | ⟨h, h', rfl⟩
  · rw [hm]; simp [h]
  · rw [hm]; simp [h]
  · rw [hm]; simp [h, h']

end Verif
