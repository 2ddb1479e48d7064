import Verif.Lemmas.Basic
import Verif.Spec
/-!
# C43: parsing of transfer-hook accounts
-/

namespace Verif
open Spec

/-- The parsed accounts of a kind. -/
def ParsedHooks.get (h : ParsedHooks) : AccountsType → Option (List Addr)
  | .transferHookBase => h.base
  | .transferHookQuote => h.quote

theorem parseHooksLoop_spec (valid : List AccountsType) (slices : List RemSlice) :
    ∀ (rem : List Addr) (acc h : ParsedHooks) (left : List Addr),
    parseHooksLoop valid slices rem acc = .ok (h, left) →
    (∀ s ∈ slices, s.accountsType ∈ valid) ∧ announced slices ≤ rem.length ∧
    left = rem.drop (announced slices) ∧
    ∀ k, (∀ l, acc.get k = some l →
            h.get k = some l ∧ ∀ s ∈ slices, s.accountsType = k → s.length = 0) ∧
         (acc.get k = none → SliceOf k slices rem (h.get k)) := by
  induction slices with
  | nil =>
    intro rem acc h left hp
    simp only [parseHooksLoop, ok_eq_ok, Prod.mk.injEq] at hp
    obtain ⟨rfl, rfl⟩ := hp
    refine ⟨by simp, by simp [announced], by simp [announced], ?_⟩
    intro k
    refine ⟨fun l hl => ⟨hl, by simp⟩, fun hn => ?_⟩
    rw [hn]; simp [SliceOf]
  | cons s ss ih =>
    intro rem acc h left hp
    have hann : announced (s :: ss) = s.length + announced ss := by simp [announced]
    rw [parseHooksLoop] at hp
    split at hp
    · simp at hp
    next hv =>
    have hv : s.accountsType ∈ valid := by simpa using hv
    split at hp
    · next h0 =>
      obtain ⟨h1, h2, h3, h4⟩ := ih _ _ _ _ hp
      refine ⟨by simpa using ⟨hv, h1⟩, by omega, by rw [hann, h0, Nat.zero_add]; exact h3, ?_⟩
      intro k
      obtain ⟨ha, hb⟩ := h4 k
      constructor
      · intro l hl
        obtain ⟨e1, e2⟩ := ha l hl
        refine ⟨e1, ?_⟩
        intro s' hs' hk
        rcases List.mem_cons.1 hs' with rfl | hs'
        · exact h0
        · exact e2 s' hs' hk
      · intro hn
        have := hb hn
        cases hg : h.get k with
        | none =>
          rw [hg] at this
          intro s' hs' hk
          rcases List.mem_cons.1 hs' with rfl | hs'
          · exact h0
          · exact this s' hs' hk
        | some l =>
          rw [hg] at this
          obtain ⟨pre, s1, post, e, et, en, eu, el⟩ := this
          refine ⟨s :: pre, s1, post, by rw [e]; rfl, et, en, ?_, ?_⟩
          · intro s' hs' hk
            rcases List.mem_cons.1 hs' with rfl | hs'
            · exact h0
            · exact eu s' hs' hk
          · rw [show announced (s :: pre) = announced pre by simp [announced, h0]]; exact el
    · next h0 =>
      split at hp
      · simp at hp
      next hlen =>
      -- one non-empty slice is consumed
      obtain ⟨acc', hacc, hp'⟩ : ∃ acc' : ParsedHooks,
          (acc.get s.accountsType = none ∧ acc'.get s.accountsType = some (rem.take s.length) ∧
            ∀ k, k ≠ s.accountsType → acc'.get k = acc.get k) ∧
          parseHooksLoop valid ss (rem.drop s.length) acc' = .ok (h, left) := by
        cases ht : s.accountsType with
        | transferHookBase =>
          simp only [ht] at hp
          split at hp
          · simp at hp
          · next hb =>
            refine ⟨_, ⟨by simpa [ParsedHooks.get] using hb, rfl, ?_⟩, hp⟩
            intro k hk; cases k <;> simp_all [ParsedHooks.get]
        | transferHookQuote =>
          simp only [ht] at hp
          split at hp
          · simp at hp
          · next hb =>
            refine ⟨_, ⟨by simpa [ParsedHooks.get] using hb, rfl, ?_⟩, hp⟩
            intro k hk; cases k <;> simp_all [ParsedHooks.get]
      obtain ⟨h1, h2, h3, h4⟩ := ih _ _ _ _ hp'
      rw [List.length_drop] at h2
      refine ⟨by simpa using ⟨hv, h1⟩, by omega, by rw [hann, h3, List.drop_drop], ?_⟩
      intro k
      obtain ⟨ha, hb⟩ := h4 k
      by_cases hk : k = s.accountsType
      · subst hk
        obtain ⟨e1, e2⟩ := ha _ hacc.2.1
        refine ⟨fun l hl => by rw [hacc.1] at hl; simp at hl, fun _ => ?_⟩
        rw [e1]
        exact ⟨[], s, ss, rfl, rfl, h0, by simpa using e2, by simp [announced]⟩
      · rw [hacc.2.2 k hk] at ha hb
        have hne : s.accountsType ≠ k := fun e => hk e.symm
        constructor
        · intro l hl
          obtain ⟨e1, e2⟩ := ha l hl
          refine ⟨e1, ?_⟩
          intro s' hs' hk'
          rcases List.mem_cons.1 hs' with rfl | hs'
          · exact absurd hk' hne
          · exact e2 s' hs' hk'
        · intro hn
          have := hb hn
          cases hg : h.get k with
          | none =>
            rw [hg] at this
            intro s' hs' hk'
            rcases List.mem_cons.1 hs' with rfl | hs'
            · exact absurd hk' hne
            · exact this s' hs' hk'
          | some l =>
            rw [hg] at this
            obtain ⟨pre, s1, post, e, et, en, eu, el⟩ := this
            refine ⟨s :: pre, s1, post, by rw [e]; rfl, et, en, ?_, ?_⟩
            · intro s' hs' hk'
              rcases List.mem_cons.1 hs' with rfl | hs'
              · exact absurd hk' hne
              · exact eu s' hs' hk'
            · rw [el, List.drop_drop]; simp [announced]

/-- C43: when parsing succeeds, every announced kind was allowed, exactly the announced accounts are
consumed from the front, and each kind gets exactly the accounts of its single non-empty slice. -/
theorem C43_parse_exact {rem : List Addr} {slices : List RemSlice} {valid : List AccountsType}
    {h : ParsedHooks} {left : List Addr} (hp : parseHooks rem slices valid = .ok (h, left)) :
    (∀ s ∈ slices, s.accountsType ∈ valid) ∧
    announced slices ≤ rem.length ∧ left = rem.drop (announced slices) ∧
    SliceOf .transferHookBase slices rem h.base ∧ SliceOf .transferHookQuote slices rem h.quote := by
  obtain ⟨h1, h2, h3, h4⟩ := parseHooksLoop_spec valid slices _ _ _ _ hp
  exact ⟨h1, h2, h3, (h4 .transferHookBase).2 rfl, (h4 .transferHookQuote).2 rfl⟩

theorem parseHooksLoop_accepts (valid : List AccountsType) (slices : List RemSlice) :
    ∀ (rem : List Addr) (acc : ParsedHooks),
    (∀ s ∈ slices, s.accountsType ∈ valid) → announced slices ≤ rem.length →
    (∀ k, (slices.filter (fun s => s.accountsType = k ∧ s.length ≠ 0)).length ≤
      if (acc.get k).isSome then 0 else 1) →
    ∃ r, parseHooksLoop valid slices rem acc = .ok r := by
  induction slices with
  | nil => intro rem acc _ _ _; exact ⟨_, rfl⟩
  | cons s ss ih =>
    intro rem acc hv hlen hdup
    have hann : announced (s :: ss) = s.length + announced ss := by simp [announced]
    rw [parseHooksLoop]
    rw [if_neg (by simpa using hv s (by simp))]
    have hv' : ∀ s ∈ ss, s.accountsType ∈ valid := fun s' hs' => hv s' (by simp [hs'])
    by_cases h0 : s.length = 0
    · rw [if_pos h0]
      apply ih _ _ hv' (by omega)
      intro k
      have := hdup k
      rw [List.filter_cons_of_neg (by simp [h0])] at this
      exact this
    · rw [if_neg h0, if_neg (by omega)]
      have hs := hdup s.accountsType
      rw [List.filter_cons_of_pos (by simp [h0])] at hs
      have hnone : acc.get s.accountsType = none := by
        cases hg : acc.get s.accountsType with
        | none => rfl
        | some l => rw [hg] at hs; simp at hs
      have hrest : ∀ acc' : ParsedHooks,
          (∀ k, k ≠ s.accountsType → acc'.get k = acc.get k) →
          ∃ r, parseHooksLoop valid ss (rem.drop s.length) acc' = .ok r := by
        intro acc' hacc
        apply ih _ _ hv' (by rw [List.length_drop]; omega)
        intro k
        by_cases hk : k = s.accountsType
        · subst hk
          rw [hnone] at hs
          simp only [List.length_cons] at hs
          have hz : (ss.filter (fun s' => s'.accountsType = s.accountsType ∧ s'.length ≠ 0)).length = 0 := by
            simpa using hs
          rw [hz]; exact Nat.zero_le _
        · have := hdup k
          rw [List.filter_cons_of_neg (by simp; intro e; exact absurd e.symm hk)] at this
          rw [hacc k hk]; exact this
      cases ht : s.accountsType with
      | transferHookBase =>
        rw [ht] at hnone
        simp only [ParsedHooks.get] at hnone
        simp only [hnone, Option.isSome_none, Bool.false_eq_true, if_false]
        apply hrest
        intro k hk; rw [ht] at hk; cases k <;> simp_all [ParsedHooks.get]
      | transferHookQuote =>
        rw [ht] at hnone
        simp only [ParsedHooks.get] at hnone
        simp only [hnone, Option.isSome_none, Bool.false_eq_true, if_false]
        apply hrest
        intro k hk; rw [ht] at hk; cases k <;> simp_all [ParsedHooks.get]

/-- C43, acceptance: parsing succeeds exactly when every announced kind is allowed, enough accounts
are supplied and no kind is announced twice with accounts. -/
theorem C43_parse_accepts_iff (rem : List Addr) (slices : List RemSlice) (valid : List AccountsType) :
    (∃ r, parseHooks rem slices valid = .ok r) ↔
    (∀ s ∈ slices, s.accountsType ∈ valid) ∧ announced slices ≤ rem.length ∧
    ∀ k, (slices.filter (fun s => s.accountsType = k ∧ s.length ≠ 0)).length ≤ 1 := by
  constructor
  · rintro ⟨⟨h, left⟩, hp⟩
    obtain ⟨h1, h2, _, h4, h5⟩ := C43_parse_exact hp
    refine ⟨h1, h2, ?_⟩
    have key : ∀ k o, SliceOf k slices rem o →
        (slices.filter (fun s => s.accountsType = k ∧ s.length ≠ 0)).length ≤ 1 := by
      intro k o ho
      cases o with
      | none =>
        have : slices.filter (fun s => s.accountsType = k ∧ s.length ≠ 0) = [] := by
          rw [List.filter_eq_nil_iff]
          intro s hs hc
          simp at hc
          exact hc.2 (ho s hs hc.1)
        rw [this]; simp
      | some l =>
        obtain ⟨pre, s, post, rfl, _, _, eu, _⟩ := ho
        have hz : ∀ l' : List RemSlice, (∀ s' ∈ l', s' ∈ pre ++ post) →
            l'.filter (fun s => s.accountsType = k ∧ s.length ≠ 0) = [] := by
          intro l' hl'
          rw [List.filter_eq_nil_iff]
          intro s' hs' hc
          simp at hc
          exact hc.2 (eu s' (hl' s' hs') hc.1)
        rw [List.filter_append, hz pre (fun s' h => by simp [h]), List.filter_cons]
        rw [hz post (fun s' h => by simp [h])]
        split <;> simp
    intro k
    cases k with
    | transferHookBase => exact key _ _ h4
    | transferHookQuote => exact key _ _ h5
  · rintro ⟨h1, h2, h3⟩
    apply parseHooksLoop_accepts valid slices rem _ h1 h2
    intro k
    cases k <;> simpa [ParsedHooks.get] using h3 _

/-- Non-vacuity: two slices and a leftover account; and a rejected duplicate. -/
example : parseHooks [.key 1, .key 2, .key 3, .key 4]
      [⟨.transferHookQuote, 1⟩, ⟨.transferHookBase, 0⟩, ⟨.transferHookBase, 2⟩]
      [.transferHookBase, .transferHookQuote] =
    .ok (⟨some [.key 2, .key 3], some [.key 1]⟩, [.key 4]) := by decide +kernel
example : parseHooks [.key 1, .key 2] [⟨.transferHookQuote, 1⟩, ⟨.transferHookQuote, 1⟩]
      [.transferHookQuote] = .error (.p .duplicatedRemainingAccountTypes) := by decide +kernel

end Verif
