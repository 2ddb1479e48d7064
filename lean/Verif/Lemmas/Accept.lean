import Verif.SpecCreate
import Verif.Lemmas.Moves
import Verif.Lemmas.Init
/-!
# Exactly when the checks shared by several instructions pass
-/

namespace Verif
open Spec

theorem authorize_iff {t : TokAcct} {who : Addr} {n : Nat} :
    (∃ dlg, authorizeSpend t who n = .ok dlg) ↔ CanSpend t who n := by
  unfold authorizeSpend CanSpend
  cases hd : t.delegate with
  | none =>
    by_cases ho : t.owner = who
    · simp [ho]
    · simp [ho]
  | some d =>
    obtain ⟨d, k⟩ := d
    by_cases he : d = who
    · subst he
      by_cases hk : k < n
      · simp [hk]
      · simp only [if_true, if_neg hk]
        exact ⟨fun _ => Or.inl ⟨k, rfl, by omega⟩, fun _ => ⟨_, rfl⟩⟩
    · simp only [if_neg he]
      by_cases ho : t.owner = who
      · simp [ho, he]
      · simp [ho, he]

theorem slicesInRange_iff {ss : List RemSlice} : slicesInRange ss = true ↔ SlicesFit ss := by
  unfold slicesInRange SlicesFit
  simp only [Bool.and_eq_true, decide_eq_true_eq, List.all_eq_true, u32Bound_eq, u8Bound_eq]

theorem checkHook_iff {m : MintInfo} {o : Option (List Addr)} :
    checkHookAccounts m o = .ok () ↔ (o = none ↔ m.hookProgram = none) := by
  unfold checkHookAccounts
  cases h : m.hookProgram with
  | none => simp only [require_eq_ok]; cases o <;> simp
  | some a => simp only [require_eq_ok]; cases o <;> simp

theorem filter_zero {l : List RemSlice} (h : ∀ s ∈ l, s.length = 0) :
    l.filter (fun s => s.length ≠ 0) = [] := by
  rw [List.filter_eq_nil_iff]
  intro s hs
  simp [h s hs]

theorem sliceOf_count {kind : AccountsType} {slices : List RemSlice} {rem : List Addr} {o : Option (List Addr)}
    (hk : ∀ s ∈ slices, s.accountsType = kind) (h : SliceOf kind slices rem o) :
    (slices.filter (fun s => s.length ≠ 0)).length = if o = none then 0 else 1 := by
  cases o with
  | none =>
    rw [filter_zero (fun s hs => h s hs (hk s hs))]; rfl
  | some l =>
    obtain ⟨pre, s, post, rfl, _, hs, hz, _⟩ := h
    have h1 : pre.filter (fun s => s.length ≠ 0) = [] :=
      filter_zero (fun x hx => hz x (by simp [hx]) (hk x (by simp [hx])))
    have h2 : post.filter (fun s => s.length ≠ 0) = [] :=
      filter_zero (fun x hx => hz x (by simp [hx]) (hk x (by simp [hx])))
    rw [List.filter_append, List.filter_cons_of_pos (by simp [hs]), h1, h2]
    simp

/-- The hook accounts of an instruction are accepted exactly when they are the ones the mint calls for. -/
theorem hooks_iff {kind : AccountsType} {m : MintInfo} {rem : List Addr} {slices : List RemSlice} :
    (∃ hooks rest, parseHooks rem slices [kind] = .ok (hooks, rest) ∧
      checkHookAccounts m (hooks.get kind) = .ok ()) ↔ HooksExact kind m rem slices := by
  have pick : ∀ {hooks : ParsedHooks} {rest : List Addr}, parseHooks rem slices [kind] = .ok (hooks, rest) →
      SliceOf kind slices rem (hooks.get kind) := by
    intro hooks rest h
    obtain ⟨_, _, _, h1, h2⟩ := C43_parse_exact h
    cases kind
    · exact h1
    · exact h2
  constructor
  · rintro ⟨hooks, rest, hp, hc⟩
    obtain ⟨h1, h2, _, _, _⟩ := C43_parse_exact hp
    have hk : ∀ s ∈ slices, s.accountsType = kind := fun s hs => by simpa using h1 s hs
    refine ⟨hk, h2, ?_⟩
    rw [sliceOf_count hk (pick hp)]
    have := checkHook_iff.1 hc
    by_cases hn : m.hookProgram = none
    · rw [if_pos hn, if_pos (this.2 hn)]
    · rw [if_neg hn, if_neg (fun h => hn (this.1 h))]
  · rintro ⟨hk, he, hc⟩
    obtain ⟨⟨hooks, rest⟩, hp⟩ := (C43_parse_accepts_iff rem slices [kind]).2 ⟨fun s hs => by simp [hk s hs], he, by
      intro k
      have e : slices.filter (fun s => s.accountsType = k ∧ s.length ≠ 0) =
          (slices.filter (fun s => s.length ≠ 0)).filter (fun s => s.accountsType = k) := by
        rw [List.filter_filter]; congr 1; funext s; simp
      rw [e]
      refine Nat.le_trans (List.length_filter_le _ _) ?_
      rw [hc]; split <;> omega⟩
    refine ⟨hooks, rest, hp, ?_⟩
    have h := sliceOf_count hk (pick hp)
    rw [hc] at h
    rw [checkHook_iff]
    by_cases hn : m.hookProgram = none
    · rw [if_pos hn] at h
      by_cases ho : hooks.get kind = none
      · simp [hn, ho]
      · rw [if_neg ho] at h; cases h
    · rw [if_neg hn] at h
      by_cases ho : hooks.get kind = none
      · rw [if_pos ho] at h; cases h
      · simp [hn, ho]

theorem supported_iff {m : MintInfo} : isSupportedMint m = true ↔ Admitted m := by
  unfold isSupportedMint Admitted
  by_cases hp : m.program = .splToken
  · simp [hp]
  · rw [if_neg hp]
    cases hn : m.isNative with
    | true => simp [hp]
    | false =>
      simp only [Bool.false_eq_true, if_false, hp, false_or, true_and, List.all_eq_true]
      constructor
      · intro h e he
        have := h e he
        cases e <;> simp [extSupported] at *
      · intro h e he
        rcases h e he with rfl | rfl | rfl | rfl <;> rfl

/-- Exactly when a transfer goes through. -/
theorem transfer_iff {k : Tokens} {authority mint src dst : Addr} {prog : TokenProgram} {amount : Nat}
    {hooks : Option (List Addr)} {accept : Bool} :
    (∃ tk cpi, transferTokens k authority mint src dst prog amount hooks accept = .ok (tk, cpi)) ↔
    ∃ s d m, k.toks src = some s ∧ k.toks dst = some d ∧ k.mints mint = some m ∧
      checkHookAccounts m hooks = .ok () ∧ m.program = prog ∧ s.mint = mint ∧ d.mint = mint ∧
      s.frozen = false ∧ d.frozen = false ∧ amount ≤ s.amount ∧ CanSpend s authority amount ∧ accept = true ∧
      (src ≠ dst → d.amount + (amount - m.transferFee amount) < 2 ^ 64) := by
  constructor
  · rintro ⟨tk, cpi, h⟩
    obtain ⟨s, d, m, dlg, F⟩ := transferTokens_iff.1 h
    have := F.room
    rw [u64Bound_eq] at this
    exact ⟨s, d, m, F.hs, F.hd, F.hm, F.hook, F.prog, F.smint, F.dmint, F.sfrozen, F.dfrozen, F.enough,
      authorize_iff.1 ⟨_, F.auth⟩, F.acc, this⟩
  · rintro ⟨s, d, m, h1, h2, h3, h4, h5, h6, h7, h8, h9, h10, h11, h12, h13⟩
    obtain ⟨dlg, hd⟩ := authorize_iff.2 h11
    have h13 : src ≠ dst → d.amount + (amount - m.transferFee amount) < u64Bound := by rw [u64Bound_eq]; exact h13
    exact ⟨_, _, transferTokens_iff.2 ⟨s, d, m, dlg, h1, h3, h2, h4, h5, h6, h7, h8, h9, h10, hd, h12, h13, rfl, rfl⟩⟩

end Verif
