import Verif.SpecErrors
import Verif.Lemmas.MachineAfter
import Verif.Lemmas.MachineAdmin
/-!
# Error codes: tools
-/

namespace Verif
open Spec

/-- Whenever the computation ends in an error code of the program, the code is in `S`. -/
def Errs {α : Type} (S : PErr → Prop) (x : Except Err α) : Prop := ∀ e, x = .error (.p e) → S e

section basic
variable {α β : Type} {S : PErr → Prop}

theorem errs_ok (a : α) : Errs S (.ok a) := by intro e h; cases h
theorem errs_pure (a : α) : Errs S (pure a : Except Err α) := by intro e h; cases h
theorem errs_x (e : XErr) : Errs S (.error (.x e) : Except Err α) := by intro e h; cases h
theorem errs_panic : Errs S (.error .panic : Except Err α) := by intro e h; cases h
theorem errs_p {e : PErr} (h : S e) : Errs S (.error (.p e) : Except Err α) := by intro e h'; cases h'; exact h
theorem errs_of_ok {x : Except Err α} {a : α} (h : x = .ok a) : Errs S x := by rw [h]; exact errs_ok a
theorem Errs.mono {S' : PErr → Prop} {x : Except Err α} (h : Errs S x) (hs : ∀ e, S e → S' e) : Errs S' x :=
  fun e he => hs e (h e he)

theorem errs_bind {x : Except Err α} {f : α → Except Err β} (h : Errs S x) (h' : ∀ a, x = .ok a → Errs S (f a)) :
    Errs S (x >>= f) := by
  intro e he
  cases x with
  | ok a => exact h' a rfl e he
  | error e' => exact h e (by cases he; rfl)

theorem errs_require_x {c : Prop} [Decidable c] (e : XErr) : Errs S (require c (.x e)) := by
  intro e' h; unfold require at h; split at h <;> cases h
theorem errs_require {c : Prop} [Decidable c] {e : PErr} (h : ¬ c → S e) : Errs S (require c (.p e)) := by
  intro e' h'; unfold require at h'; split at h'
  · cases h'
  · next hc => cases h'; exact h hc
theorem errs_load (o : Option α) : Errs S (load o) := by
  intro e' h; unfold load at h; cases o <;> cases h

/-- A required condition, then the rest. -/
theorem errs_req {c : Prop} [Decidable c] {e : PErr} {f : Unit → Except Err β} (h : ¬ c → S e)
    (h' : c → Errs S (f ())) : Errs S (require c (.p e) >>= f) :=
  errs_bind (errs_require h) (fun _ ha => h' (require_eq_ok.1 ha))
theorem errs_reqx {c : Prop} [Decidable c] {e : XErr} {f : Unit → Except Err β}
    (h' : c → Errs S (f ())) : Errs S (require c (.x e) >>= f) :=
  errs_bind (errs_require_x e) (fun _ ha => h' (require_eq_ok.1 ha))
theorem errs_loads {o : Option α} {f : α → Except Err β} (h' : ∀ a, o = some a → Errs S (f a)) :
    Errs S (load o >>= f) :=
  errs_bind (errs_load o) (fun a ha => h' a (load_eq_ok.1 ha))
theorem errs_time {t : Int} {f : Nat → Except Err β} (h : 0 ≤ t) (h' : Errs S (f t.toNat)) :
    Errs S (castTime t >>= f) :=
  errs_bind (errs_of_ok (castTime_eq_ok.2 ⟨h, rfl⟩)) (fun a ha => by
    obtain ⟨_, rfl⟩ := castTime_eq_ok.1 ha; exact h')
theorem errs_known {x : Except Err α} {a : α} {f : α → Except Err β} (h : x = .ok a) (h' : Errs S (f a)) :
    Errs S (x >>= f) := by
  rw [h]; exact h'

end basic

/-! ## The token layer -/

theorem errs_authorize {S : PErr → Prop} (t : TokAcct) (who : Addr) (n : Nat) : Errs S (authorizeSpend t who n) := by
  intro e h; unfold authorizeSpend at h
  repeat' (split at h)
  all_goals cases h

theorem errs_checked {S : PErr → Prop} (k : Tokens) (prog : TokenProgram) (src mint dst who : Addr) (n : Nat)
    (acc : Bool) : Errs S (transferChecked k prog src mint dst who n acc) := by
  unfold transferChecked
  split
  · refine errs_reqx fun _ => errs_reqx fun _ => errs_reqx fun _ => errs_reqx fun _ =>
      errs_bind (errs_authorize _ _ _) fun _ _ => errs_reqx fun _ => ?_
    dsimp only
    split
    · exact errs_pure _
    · exact errs_reqx fun _ => errs_pure _
  · exact errs_x _

theorem errs_burn {S : PErr → Prop} (k : Tokens) (prog : TokenProgram) (src mint who : Addr) (n : Nat) :
    Errs S (burnTokens k prog src mint who n) := by
  unfold burnTokens
  split
  · exact errs_reqx fun _ => errs_reqx fun _ => errs_reqx fun _ => errs_reqx fun _ => errs_reqx fun _ =>
      errs_bind (errs_authorize _ _ _) fun _ _ => errs_reqx fun _ => errs_pure _
  · exact errs_x _

/-- Reasons for the parsing loop to fail, `used` non-empty slices of the kind having been read before. -/
def LoopReason (kind : AccountsType) (slices : List RemSlice) (rem : List Addr) (used : Nat) : PErr → Prop
  | .invalidRemainingAccountSlice => (∃ s ∈ slices, s.accountsType ≠ kind) ∨ rem.length < announced slices
  | .duplicatedRemainingAccountTypes => 1 < (slices.filter (fun s => s.length ≠ 0)).length + used
  | _ => False

theorem errs_parseLoop {kind : AccountsType} {slices : List RemSlice} : ∀ {rem : List Addr} {acc : ParsedHooks}
    {used : Nat}, ((acc.get kind).isSome = true → 1 ≤ used) →
    Errs (LoopReason kind slices rem used) (parseHooksLoop [kind] slices rem acc) := by
  induction slices with
  | nil => intro rem acc used _; exact errs_ok _
  | cons s ss ih =>
    intro rem acc used hacc
    unfold parseHooksLoop
    have hann : announced (s :: ss) = s.length + announced ss := by simp [announced]
    by_cases hk : s.accountsType = kind
    · rw [if_neg (by simpa using hk)]
      by_cases hz : s.length = 0
      · rw [if_pos hz]
        have hf : ((s :: ss).filter (fun s => s.length ≠ 0)) = ss.filter (fun s => s.length ≠ 0) := by
          simp [hz]
        refine (ih hacc).mono ?_
        intro e he
        cases e <;> unfold LoopReason at he ⊢ <;> simp only at he ⊢
        · rcases he with ⟨x, hx, hx'⟩ | he
          · exact .inl ⟨x, List.mem_cons_of_mem _ hx, hx'⟩
          · right; omega
        · rw [hf]; exact he
      · rw [if_neg hz]
        by_cases hl : rem.length < s.length
        · rw [if_pos hl]
          exact errs_p (Or.inr (by omega))
        · rw [if_neg hl]
          have hf : ((s :: ss).filter (fun s => s.length ≠ 0)).length =
              (ss.filter (fun s => s.length ≠ 0)).length + 1 := by
            simp [hz]
          have key : ∀ acc' : ParsedHooks,
              Errs (LoopReason kind (s :: ss) rem used) (parseHooksLoop [kind] ss (rem.drop s.length) acc') := by
            intro acc'
            refine (ih (used := 1) (fun _ => Nat.le_refl _)).mono ?_
            intro e he
            have hd : (rem.drop s.length).length = rem.length - s.length := List.length_drop
            cases e <;> unfold LoopReason at he ⊢ <;> simp only at he ⊢
            · rcases he with ⟨x, hx, hx'⟩ | he
              · exact .inl ⟨x, List.mem_cons_of_mem _ hx, hx'⟩
              · right; omega
            · omega
          have dup : (acc.get kind).isSome = true →
              LoopReason kind (s :: ss) rem used .duplicatedRemainingAccountTypes := by
            intro h
            have := hacc h
            show 1 < _ + used
            omega
          cases hkk : s.accountsType with
          | transferHookBase =>
            simp only
            by_cases hb : acc.base.isSome = true
            · rw [if_pos hb]
              exact errs_p (dup (by rw [← hk, hkk]; exact hb))
            · rw [if_neg hb]; exact key _
          | transferHookQuote =>
            simp only
            by_cases hb : acc.quote.isSome = true
            · rw [if_pos hb]
              exact errs_p (dup (by rw [← hk, hkk]; exact hb))
            · rw [if_neg hb]; exact key _
    · rw [if_pos (by simpa using hk)]
      exact errs_p (Or.inl ⟨s, by simp, hk⟩)

theorem errs_read {kind : AccountsType} {slices : List RemSlice} {rem : List Addr} :
    Errs (LoopReason kind slices rem 0) (parseHooks rem slices [kind]) := by
  refine errs_parseLoop (used := 0) (acc := { base := none, quote := none }) ?_
  cases kind <;> (intro h; cases h)

theorem errs_parse {kind : AccountsType} {slices : List RemSlice} {rem : List Addr} (m : MintInfo) :
    Errs (HookReason kind m rem slices) (parseHooks rem slices [kind]) := by
  refine errs_read.mono ?_
  intro e he
  cases e <;> unfold LoopReason at he <;> simp only at he
  · exact he
  · exact he

/-- Parsing the hook accounts, then transferring. -/
theorem errs_move {kind : AccountsType} {slices : List RemSlice} {rem left : List Addr} {hooks : ParsedHooks}
    {k : Tokens} {who mint src dst : Addr} {prog : TokenProgram} {n : Nat} {acc : Bool} {m : MintInfo}
    (hm : k.mints mint = some m) (hp : parseHooks rem slices [kind] = .ok (hooks, left)) :
    Errs (HookReason kind m rem slices) (transferTokens k who mint src dst prog n (hooks.get kind) acc) := by
  unfold transferTokens
  rw [hm]
  refine errs_bind ?_ (fun _ _ => errs_checked _ _ _ _ _ _ _ _)
  obtain ⟨h1, _, _, hb, hq⟩ := C43_parse_exact hp
  have hk : ∀ s ∈ slices, s.accountsType = kind := fun s hs => by simpa using h1 s hs
  have hs : SliceOf kind slices rem (hooks.get kind) := by
    cases kind
    · exact hb
    · exact hq
  have hc := sliceOf_count hk hs
  unfold checkHookAccounts
  cases hh : m.hookProgram with
  | some pr =>
    refine errs_require fun hn => ?_
    rw [if_pos (by cases ho : hooks.get kind <;> simp_all)] at hc
    refine ⟨by rw [hh]; simp, fun s hs => ?_⟩
    have := List.length_eq_zero_iff.1 hc
    rw [List.filter_eq_nil_iff] at this
    simpa using this s hs
  | none =>
    refine errs_require fun hn => ?_
    rw [if_neg (by cases ho : hooks.get kind <;> simp_all)] at hc
    refine ⟨hh, ?_⟩
    obtain ⟨s, hs⟩ := List.exists_mem_of_length_pos (l := slices.filter (fun s => s.length ≠ 0)) (by omega)
    have := List.mem_filter.1 hs
    exact ⟨s, this.1, by simpa using this.2⟩

end Verif
