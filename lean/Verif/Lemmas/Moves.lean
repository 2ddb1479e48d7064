import Verif.Lemmas.Origin
import Verif.Props.HookAccounts
/-!
# Token movements of successful instructions, in the words of the specification
-/

namespace Verif
open Spec

theorem transfer_spec {k k' : Tokens} {authority mint src dst : Addr} {prog : TokenProgram} {amount : Nat}
    {hooks : Option (List Addr)} {accept : Bool} {cpi : Cpi}
    (hm : ∀ m, k.mints mint = some m → FeeOk m)
    (h : transferTokens k authority mint src dst prog amount hooks accept = .ok (k', cpi)) :
    Transferred k k' mint src dst amount := by
  obtain ⟨s, d, m, dlg, T⟩ := transferTokens_iff.1 h
  have hf := transferFee_le (hm m T.hm) amount
  have he := T.enough
  by_cases hne : src = dst
  · have hpost := T.post
    rw [if_pos hne] at hpost
    subst hpost
    exact ⟨rfl, fun _ _ _ => rfl, m, s, d, s, d, T.hm, T.hs, T.hd, T.hs, T.hd, T.smint, T.dmint,
      ⟨rfl, rfl, rfl⟩, ⟨rfl, rfl, rfl⟩, he, fun _ => rfl, fun h => absurd hne h⟩
  · obtain ⟨x1, x2, x3, x4⟩ := T.exact hne
    refine ⟨x4, x3, m, s, d, _, _, T.hm, T.hs, T.hd, x1, x2, T.smint, T.dmint, ⟨rfl, rfl, rfl⟩,
      ⟨rfl, rfl, rfl⟩, he, fun h => absurd h hne, fun _ => ⟨?_, ?_⟩⟩
    · show s.amount - amount + amount = s.amount; omega
    · show d.amount + (amount - m.transferFee amount) + m.transferFee amount = d.amount + amount; omega

theorem burn_spec {k k' : Tokens} {authority mint src : Addr} {prog : TokenProgram} {amount : Nat} {cpi : Cpi}
    (h : burnTokens k prog src mint authority amount = .ok (k', cpi)) : Burnt k k' mint src amount := by
  obtain ⟨s, m, dlg, B⟩ := burnTokens_iff.1 h
  have h1 := B.enough
  have h2 := B.supply
  have hpost := B.post
  subst hpost
  refine ⟨fun x hx => upd_other _ _ hx, fun x hx => upd_other _ _ hx, m, s, _, _, B.hm, B.hs, upd_self _ _ _,
    upd_self _ _ _, B.smint, ⟨rfl, rfl, rfl⟩, ?_, ?_, rfl, rfl⟩
  · show s.amount - amount + amount = s.amount; omega
  · show m.supply - amount + amount = m.supply; omega

theorem Core.feeOk {w : World} (C : Core w) : ∀ a m, w.tk.mints a = some m → FeeOk m :=
  fun a m h => wellFormed_feeOk (C.mints a m h)

/-! ## Payouts that succeed -/

theorem parse_fits {kind : AccountsType} {m : MintInfo} {remaining : List Addr} {slices : List RemSlice}
    (h : HooksFit kind m remaining slices) :
    slicesInRange slices = true ∧ ∃ hooks rest, parseHooks remaining slices [kind] = .ok (hooks, rest) ∧
      checkHookAccounts m (hooks.get kind) = .ok () := by
  unfold HooksFit at h
  by_cases hn : m.hookProgram = none
  · rw [if_pos hn] at h
    subst h
    refine ⟨by simp [slicesInRange, u32Bound_eq], _, _, rfl, ?_⟩
    unfold checkHookAccounts
    rw [hn]
    cases kind <;> rfl
  · rw [if_neg hn] at h
    obtain ⟨n, rfl, h0, h1, h2⟩ := h
    refine ⟨?_, ?_⟩
    · simp only [slicesInRange, List.all_cons, List.all_nil, Bool.and_true, Bool.and_eq_true,
        decide_eq_true_eq, u8Bound_eq, u32Bound_eq, List.length_cons, List.length_nil]
      exact ⟨by omega, h1⟩
    · obtain ⟨a, ha⟩ := Option.ne_none_iff_exists'.1 hn
      unfold checkHookAccounts parseHooks
      rw [ha]
      cases kind <;>
      · simp only [parseHooksLoop, List.mem_singleton, not_true_eq_false, if_false]
        rw [if_neg (by omega), if_neg (by omega)]
        exact ⟨_, _, rfl, rfl⟩

theorem excluded_ok {m : MintInfo} (hm : FeeOk m) (x : Nat) : ∃ y, transferFeeExcludedAmount m x = .ok y := by
  have hle := transferFee_le hm x
  unfold MintInfo.transferFee at hle
  unfold transferFeeExcludedAmount
  cases h : m.epochFee with
  | none => exact ⟨x, rfl⟩
  | some f =>
    rw [h] at hle
    simp only at hle ⊢
    exact ⟨_, sub_ok hle⟩

/-- A payout from a vault that holds enough succeeds if nothing outside stands in the way. -/
theorem payout_ok {w : World} {tx : Tx} {kind : AccountsType} {mint vault dst : Addr} {prog : TokenProgram}
    {remaining : List Addr} {slices : List RemSlice} {amount : Nat} {v : TokAcct} {m : MintInfo} (C : Core w)
    (P : Payable w.tk tx kind mint vault dst prog remaining slices amount)
    (hvault : vault.isVault = true) (hv : w.tk.toks vault = some v) (hvm : v.mint = mint)
    (hm : w.tk.mints mint = some m) (ha : amount ≤ v.amount) :
    slicesInRange slices = true ∧ (w.tk.toks dst).isSome = true ∧
    ∃ hooks rest, parseHooks remaining slices [kind] = .ok (hooks, rest) ∧
      ∃ tk cpi, transferTokens w.tk .presaleAuthority mint vault dst prog amount (hooks.get kind) tx.accept =
        .ok (tk, cpi) := by
  obtain ⟨h1, hooks, rest, h2, h3⟩ := parse_fits (P.hooks m hm)
  obtain ⟨d, hd, hdm, hdf, hroom⟩ := P.receiver
  obtain ⟨ho, hdel⟩ := C.vaults _ _ hvault hv
  have hr := hroom m hm
  have hx : TransferFacts w.tk .presaleAuthority mint vault dst prog amount (hooks.get kind) tx.accept _ _
      v d m none :=
    { hs := hv, hm := hm, hd := hd, hook := h3, prog := P.program m hm, smint := hvm, dmint := hdm,
      sfrozen := P.thawed v hv, dfrozen := hdf, enough := ha,
      auth := by unfold authorizeSpend; rw [hdel]; simp [ho],
      acc := P.accepted, room := fun _ => by rw [u64Bound_eq]; exact hr, cpi := rfl, post := rfl }
  exact ⟨h1, by rw [hd]; rfl, hooks, rest, h2, _, _, transferTokens_iff.2 ⟨v, d, m, none, hx⟩⟩

end Verif
