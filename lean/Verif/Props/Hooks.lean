import Verif.Lemmas.Hooks
import Verif.Lemmas.Reach
import Verif.Lemmas.Origin
import Verif.SpecHooks
import Verif.Props.Errors
/-!
# C86: transfer hooks are programs, and what they can do

An instruction whose transfer calls a hook does what it would do without it, followed by what the hook did to token
accounts that are not the program's. So everything proved about reachable ledgers holds with arbitrary hook programs.
-/

namespace Verif

/-! ## Calls of a hook -/

/-- The step of the environment a call amounts to. -/
def HookCall.op : HookCall → Option Op
  | .setTok a t => some (.setTok a t)
  | .donate v n => some (.donate v n)
  | .freezeVault v b => some (.freezeVault v b)
  | .setMint a m => some (.setMint a m)
  | .reenter => none

/-- Everything that holds of one successful call. -/
theorem HookCall.exec_ok {k k' : Tokens} {c : HookCall} (h : c.exec k = .ok k') :
    c ≠ .reenter ∧
    (∃ op, c.op = some op ∧ Spec.NoInstruction op ∧
      ∀ w : World, w.tk = k → step w op = .ok ({ w with tk := k' }, noReceipt)) ∧
    (∀ x m, k.mints x = some m → m.program = .splToken2022 → k'.mints x = k.mints x) ∧
    (∀ v t, v.isVault = true → k.toks v = some t → ∃ t', k'.toks v = some t' ∧ t.amount ≤ t'.amount ∧
      t'.owner = t.owner ∧ t'.mint = t.mint ∧ t'.delegate = t.delegate) := by
  cases c with
  | setTok a t =>
    simp only [HookCall.exec, bind_eq_ok, require_eq_ok, exists_const, pure_eq_ok] at h
    obtain ⟨h1, h2, rfl⟩ := h
    refine ⟨by simp, ⟨_, rfl, trivial, ?_⟩, fun x m _ _ => rfl, fun v t' hv ht => ?_⟩
    · rintro w rfl
      simp only [step, bind_eq_ok, require_eq_ok, exists_const, pure_eq_ok]
      exact ⟨h1, h2, trivial⟩
    · refine ⟨t', ?_, le_refl _, rfl, rfl, rfl⟩
      exact (upd_other _ _ (by rintro rfl; rw [h1] at hv; cases hv)).trans ht
  | donate v n =>
    simp only [HookCall.exec, bind_eq_ok, require_eq_ok, load_eq_ok, exists_const, pure_eq_ok] at h
    obtain ⟨t, h1, h2, rfl⟩ := h
    refine ⟨by simp, ⟨_, rfl, trivial, ?_⟩, fun x m _ _ => rfl, fun v' t' hv ht => ?_⟩
    · rintro w rfl
      simp only [step, bind_eq_ok, require_eq_ok, load_eq_ok, exists_const, pure_eq_ok]
      exact ⟨t, h1, h2, rfl⟩
    · by_cases e : v' = v
      · subst e
        rw [h1] at ht
        cases ht
        exact ⟨_, upd_self _ _ _, Nat.le_add_right _ _, rfl, rfl, rfl⟩
      · exact ⟨t', (upd_other _ _ e).trans ht, le_refl _, rfl, rfl, rfl⟩
  | freezeVault v b =>
    simp only [HookCall.exec, bind_eq_ok, load_eq_ok, pure_eq_ok] at h
    obtain ⟨t, h1, rfl⟩ := h
    refine ⟨by simp, ⟨_, rfl, trivial, ?_⟩, fun x m _ _ => rfl, fun v' t' hv ht => ?_⟩
    · rintro w rfl
      simp only [step, bind_eq_ok, load_eq_ok, pure_eq_ok]
      exact ⟨t, h1, rfl⟩
    · by_cases e : v' = v
      · subst e
        rw [h1] at ht
        cases ht
        exact ⟨_, upd_self _ _ _, le_refl _, rfl, rfl, rfl⟩
      · exact ⟨t', (upd_other _ _ e).trans ht, le_refl _, rfl, rfl, rfl⟩
  | setMint a m =>
    simp only [HookCall.exec, bind_eq_ok, require_eq_ok, exists_const, pure_eq_ok] at h
    obtain ⟨⟨h1, h2, h3⟩, h4, rfl⟩ := h
    refine ⟨by simp, ⟨_, rfl, trivial, ?_⟩, fun x m' hx hp => ?_, fun v t hv ht => ⟨t, ht, le_refl _, rfl, rfl, rfl⟩⟩
    · rintro w rfl
      simp only [step, bind_eq_ok, require_eq_ok, exists_const, pure_eq_ok]
      exact ⟨h1, h4, trivial⟩
    · refine upd_other _ _ ?_
      rintro rfl
      have := h3 m' hx
      rw [hp] at this
      cases this
  | reenter => exact absurd h (by simp [HookCall.exec])

/-- Everything that holds of successful calls. -/
theorem execCalls_ok {k k' : Tokens} {cs : List HookCall} (h : execCalls k cs = .ok k') :
    HookCall.reenter ∉ cs ∧
    (∃ ops : List Op, (∀ op ∈ ops, Spec.NoInstruction op) ∧ ∀ w : World, w.tk = k → run w ops = { w with tk := k' }) ∧
    (∀ x m, k.mints x = some m → m.program = .splToken2022 → k'.mints x = k.mints x) ∧
    (∀ v t, v.isVault = true → k.toks v = some t → ∃ t', k'.toks v = some t' ∧ t.amount ≤ t'.amount ∧
      t'.owner = t.owner ∧ t'.mint = t.mint ∧ t'.delegate = t.delegate) := by
  induction cs generalizing k with
  | nil =>
    cases h
    exact ⟨by simp, ⟨[], by simp, by rintro w rfl; rfl⟩, fun _ _ _ _ => rfl,
      fun v t _ ht => ⟨t, ht, le_refl _, rfl, rfl, rfl⟩⟩
  | cons c cs ih =>
    simp only [execCalls, bind_eq_ok] at h
    obtain ⟨k1, h1, h2⟩ := h
    obtain ⟨a1, ⟨op, _, a2, a3⟩, a4, a5⟩ := HookCall.exec_ok h1
    obtain ⟨b1, ⟨ops, b2, b3⟩, b4, b5⟩ := ih h2
    refine ⟨?_, ⟨op :: ops, ?_, ?_⟩, ?_, ?_⟩
    · rintro (_ | ⟨_, hm⟩)
      · exact a1 rfl
      · exact b1 hm
    · intro o ho
      rcases List.mem_cons.1 ho with rfl | ho
      · exact a2
      · exact b2 o ho
    · intro w hw
      show run (apply w op) ops = _
      rw [apply_ok (a3 w hw), b3 _ rfl]
    · intro x m hx hp
      rw [b4 x m ((a4 x m hx hp).trans hx) hp, a4 x m hx hp]
    · intro v t hv ht
      obtain ⟨t1, q1, q2, q3, q4, q5⟩ := a5 v t hv ht
      obtain ⟨t2, r1, r2, r3, r4, r5⟩ := b5 v t1 hv q1
      exact ⟨t2, r1, le_trans q2 r2, r3.trans q3, r4.trans q4, r5.trans q5⟩

/-- What running the hook amounts to. -/
theorem runHook_ok {σ : Type} {H : Addr → HookProgram σ} {s s' : σ} {t : Wanted} {k k' : Tokens} {cpi : Cpi}
    (h : runHook H s t k cpi = .ok (s', k')) :
    (s' = s ∧ k' = k ∧ (t.src = t.dst ∨ (k.mints t.mint).bind MintInfo.hookProgram = none)) ∨
    ∃ prog calls, (k.mints t.mint).bind MintInfo.hookProgram = some prog ∧ t.src ≠ t.dst ∧
      H prog s cpi k = some (s', calls) ∧ execCalls k calls = .ok k' := by
  unfold runHook at h
  cases hp : (k.mints t.mint).bind MintInfo.hookProgram with
  | none =>
    rw [hp] at h
    simp only [ok_eq_ok, Prod.mk.injEq] at h
    exact Or.inl ⟨h.1.symm, h.2.symm, Or.inr rfl⟩
  | some prog =>
    rw [hp] at h
    simp only at h
    by_cases e : t.src = t.dst
    · rw [if_pos e] at h
      simp only [ok_eq_ok, Prod.mk.injEq] at h
      exact Or.inl ⟨h.1.symm, h.2.symm, Or.inl e⟩
    · rw [if_neg e] at h
      cases hH : H prog s cpi k with
      | none => rw [hH] at h; cases h
      | some r =>
        obtain ⟨s1, calls⟩ := r
        rw [hH] at h
        simp only [bind_eq_ok, pure_eq_ok, Prod.mk.injEq] at h
        obtain ⟨k1, h1, rfl, rfl⟩ := h
        exact Or.inr ⟨prog, calls, rfl, e, hH, h1⟩

theorem hookProgram_2022 {m : MintInfo} {prog : Addr} (h : m.hookProgram = some prog) :
    m.program = .splToken2022 := by
  unfold MintInfo.hookProgram at h
  cases hp : m.program with
  | splToken => rw [hp] at h; cases h
  | splToken2022 => rfl

/-- A hook leaves its own mint as it was. -/
theorem runHook_mint {σ : Type} {H : Addr → HookProgram σ} {s s' : σ} {t : Wanted} {k k' : Tokens} {cpi : Cpi}
    (h : runHook H s t k cpi = .ok (s', k')) : k'.mints t.mint = k.mints t.mint := by
  rcases runHook_ok h with ⟨_, rfl, _⟩ | ⟨prog, calls, hp, _, _, hc⟩
  · rfl
  · obtain ⟨m, hm, hh⟩ := Option.bind_eq_some_iff.1 hp
    exact (execCalls_ok hc).2.2.1 _ _ hm (hookProgram_2022 hh)


/-! ## One instruction -/

/-- An instruction with hooks, taken apart: the instruction without them, then the hook. -/
theorem execHooked_ok {σ : Type} {H : Addr → HookProgram σ} {s s' : σ} {w w' : World} {tx : Tx} {i : Ix}
    {rc : Receipt} (h : execHooked H s w tx i = .ok (s', w', rc)) :
    (execIx w tx i = .ok (w', rc) ∧ s' = s ∧ ∀ x ∈ rc.cpis, ∀ prog mint, ¬ Spec.Hooked w prog mint x) ∨
    ∃ w0 mint src dst auth n fee m prog calls,
      execIx w tx i = .ok (w0, rc) ∧ rc.cpis = [.transfer mint src dst auth n fee] ∧ src ≠ dst ∧
      w.tk.mints mint = some m ∧ m.hookProgram = some prog ∧
      H prog s (.transfer mint src dst auth n fee) w0.tk = some (s', calls) ∧
      execCalls w0.tk calls = .ok w'.tk ∧ w' = { w0 with tk := w'.tk } := by
  simp only [execHooked, bind_eq_ok] at h
  obtain ⟨pr, hpr, h⟩ := h
  have S := prepare_sound hpr
  cases pr with
  | done w1 rc1 =>
    simp only [pure_eq_ok, Prod.mk.injEq] at h
    obtain ⟨rfl, rfl, rfl⟩ := h
    exact Or.inl ⟨S.1, rfl, by rw [S.2]; simp⟩
  | burn k prog src mint n go =>
    simp only [bind_eq_ok, Prod.exists, pure_eq_ok, Prod.mk.injEq] at h
    obtain ⟨k', cpi, hb, w1, rc1, hg, rfl, rfl, rfl⟩ := h
    obtain ⟨h1, h2⟩ := S _ _ _ _ hb hg
    obtain ⟨_, _, _, B⟩ := burnTokens_iff.1 hb
    refine Or.inl ⟨h1, rfl, ?_⟩
    rw [h2, B.cpi]
    simp [Spec.Hooked]
  | transfer k t go =>
    simp only [bind_eq_ok, Prod.exists, pure_eq_ok, Prod.mk.injEq] at h
    obtain ⟨k', cpi, ht, s1, k'', hr, w1, rc1, hg, rfl, rfl, rfl⟩ := h
    obtain ⟨hk, S⟩ := S
    obtain ⟨w0, rfl, e, hx, hc⟩ := S _ _ _ _ _ ht (runHook_mint hr) hg
    have hm := (transfer_mints ht).trans hk
    obtain ⟨_, _, m, _, T⟩ := transferTokens_iff.1 ht
    have hmm := T.hm
    rw [hk] at hmm
    have et : w1.tk = k'' := by rw [e]
    rcases runHook_ok hr with ⟨rfl, rfl, hno⟩ | ⟨prog, calls, hp, hne, hH, hcalls⟩
    · refine Or.inl ⟨by rw [e]; exact hx, rfl, ?_⟩
      rw [hc, T.cpi]
      simp only [List.mem_singleton, forall_eq, Spec.Hooked]
      rintro prog mint ⟨_, h1, m', h2, h3⟩
      rcases hno with hno | hno
      · exact h1 hno
      · rw [hm, h2] at hno
        exact absurd (hno.symm.trans h3) (by simp)
    · rw [hm, hmm] at hp
      subst et
      rw [T.cpi] at hH hc
      exact Or.inr ⟨w0, _, _, _, _, _, _, m, prog, calls, hx, hc, hne, hmm, hp, hH, hcalls, e⟩


/-- The converse: nothing else can stop an instruction. -/
theorem execHooked_of {σ : Type} {H : Addr → HookProgram σ} {s : σ} {w w0 : World} {tx : Tx} {i : Ix}
    {rc : Receipt} (h : execIx w tx i = .ok (w0, rc)) {s' : σ} {k' : Tokens}
    (hH : ∀ c ∈ rc.cpis, ∀ prog mint, Spec.Hooked w prog mint c →
      ∃ calls, H prog s c w0.tk = some (s', calls) ∧ execCalls w0.tk calls = .ok k')
    (hno : (∀ c ∈ rc.cpis, ∀ prog mint, ¬ Spec.Hooked w prog mint c) → s' = s ∧ k' = w0.tk) :
    execHooked H s w tx i = .ok (s', { w0 with tk := k' }, rc) := by
  obtain ⟨pr, hpr, L⟩ := prepare_live h
  have S := prepare_sound hpr
  simp only [execHooked, bind_eq_ok]
  refine ⟨pr, hpr, ?_⟩
  cases pr with
  | done w1 rc1 =>
    obtain ⟨rfl, rfl⟩ := L
    obtain ⟨rfl, rfl⟩ := hno (by rw [S.2]; simp)
    rfl
  | burn k prog src mint n go =>
    obtain ⟨k1, cpi, hb, hg⟩ := L
    obtain ⟨h1, h2⟩ := S _ _ _ _ hb hg
    obtain ⟨_, _, _, B⟩ := burnTokens_iff.1 hb
    obtain ⟨rfl, rfl⟩ := hno (by rw [h2, B.cpi]; simp [Spec.Hooked])
    simp only [bind_eq_ok, Prod.exists, pure_eq_ok, Prod.mk.injEq]
    exact ⟨k1, cpi, hb, w0, rc, hg, by trivial⟩
  | transfer k t go =>
    obtain ⟨k1, cpi, ht, rfl, hg⟩ := L
    obtain ⟨hk, S⟩ := S
    obtain ⟨_, _, _, _, hc⟩ := S _ _ _ _ _ ht rfl (hg _ rfl)
    have hm := (transfer_mints ht).trans hk
    obtain ⟨_, _, m, _, T⟩ := transferTokens_iff.1 ht
    have hmm := T.hm
    rw [hk] at hmm
    have hr : runHook H s t w0.tk cpi = .ok (s', k') := by
      unfold runHook
      rw [hm, hmm]
      by_cases hh : ∃ prog, m.hookProgram = some prog ∧ t.src ≠ t.dst
      · obtain ⟨prog, hp, hne⟩ := hh
        have hk : Spec.Hooked w prog t.mint cpi := by
          rw [T.cpi]; exact ⟨rfl, hne, m, hmm, hp⟩
        obtain ⟨calls, q1, q2⟩ := hH cpi (by rw [hc]; simp) _ _ hk
        simp only [Option.bind_some, hp, if_neg hne, q1, q2]
        rfl
      · obtain ⟨rfl, rfl⟩ := hno (by
          rw [hc, T.cpi]
          simp only [List.mem_singleton, forall_eq, Spec.Hooked]
          rintro prog mint ⟨_, h1, m', h2, h3⟩
          rw [hmm] at h2
          cases h2
          exact hh ⟨prog, h3, h1⟩)
        cases hp : m.hookProgram with
        | none => simp only [Option.bind_some, hp]
        | some prog =>
          have : t.src = t.dst := by
            by_contra hne; exact hh ⟨prog, hp, hne⟩
          simp only [Option.bind_some, hp, if_pos this]
    simp only [bind_eq_ok, Prod.exists, pure_eq_ok, Prod.mk.injEq]
    exact ⟨w0.tk, cpi, ht, s', k', hr, _, rc, hg _ (runHook_mint hr), by trivial⟩

/-- C86. With any hook programs, in any states, an instruction that succeeds is the instruction without hooks, with the
same record, followed by steps of the environment. Every account of the program is as without the hook and no vault
holds less. -/
theorem C86_instruction {σ : Type} {H : Addr → HookProgram σ} {s s' : σ} {w w' : World} {tx : Tx} {i : Ix}
    {rc : Receipt} (h : execHooked H s w tx i = .ok (s', w', rc)) :
    ∃ w0 ops, execIx w tx i = .ok (w0, rc) ∧ (∀ op ∈ ops, Spec.NoInstruction op) ∧ w' = run w0 ops ∧
      Spec.SameProgramState w0 w' ∧ Spec.VaultsKept w0 w' := by
  rcases execHooked_ok h with ⟨hx, _, _⟩ | ⟨w0, mint, src, dst, auth, n, fee, m, prog, calls, hx, _, _, _, _, _, hc, e⟩
  · exact ⟨w', [], hx, by simp, rfl, ⟨rfl, rfl, rfl, rfl, rfl, rfl, rfl, rfl⟩,
      fun v t _ ht => ⟨t, ht, le_refl _, rfl, rfl, rfl⟩⟩
  · obtain ⟨_, ⟨ops, h1, h2⟩, _, h4⟩ := execCalls_ok hc
    refine ⟨w0, ops, hx, h1, by rw [h2 w0 rfl]; exact e, ?_, h4⟩
    constructor <;> rw [e]

/-- C86. The ledgers that come about with arbitrary hook programs, with their own states, called by anybody at any time,
are ledgers of the model without them. So every theorem about reachable ledgers holds for them. -/
theorem C86_ledger {σ : Type} {H : Addr → HookProgram σ} {h : HWorld σ} (R : HReachable H h) : Reachable h.w := by
  obtain ⟨w0, s0, ops, G, rfl⟩ := R
  have R0 : Reachable w0 := ⟨w0, [], G, rfl⟩
  clear G
  induction ops generalizing w0 s0 with
  | nil => exact R0
  | cons op ops ih =>
    show Reachable (hrun H (happly H ⟨w0, s0⟩ op) ops).w
    refine ih _ _ ?_
    cases hs : hstep H ⟨w0, s0⟩ op with
    | error e => exact R0
    | ok r =>
      obtain ⟨h', rc⟩ := r
      show Reachable h'.w
      cases op with
      | env o =>
        cases o with
        | ix tx i => cases hs
        | _ =>
          simp only [hstep, bind_eq_ok, Prod.exists, pure_eq_ok, Prod.mk.injEq] at hs
          obtain ⟨w1, rc1, h1, rfl, _⟩ := hs
          exact R0.step h1
      | ix tx i =>
        simp only [hstep, bind_eq_ok, Prod.exists, pure_eq_ok, Prod.mk.injEq] at hs
        obtain ⟨s1, w1, rc1, h1, rfl, _⟩ := hs
        obtain ⟨w2, ops', h2, _, rfl, _⟩ := C86_instruction h1
        exact (R0.step (op := .ix tx i) h2).run ops'
      | poke s =>
        simp only [hstep, ok_eq_ok, Prod.mk.injEq] at hs
        obtain ⟨rfl, _⟩ := hs
        exact R0


/-- An instruction makes at most one token operation. -/
theorem cpis_le_one {w w' : World} {tx : Tx} {i : Ix} {rc : Receipt} (h : execIx w tx i = .ok (w', rc)) :
    rc.cpis.length ≤ 1 := by
  obtain ⟨pr, hpr, L⟩ := prepare_live h
  have S := prepare_sound hpr
  cases pr with
  | done w1 rc1 => obtain ⟨rfl, rfl⟩ := L; rw [S.2]; simp
  | burn k prog src mint n go =>
    obtain ⟨k1, cpi, hb, hg⟩ := L
    rw [(S _ _ _ _ hb hg).2]; simp
  | transfer k t go =>
    obtain ⟨k1, cpi, ht, rfl, hg⟩ := L
    obtain ⟨_, _, _, _, hc⟩ := S.2 _ _ _ _ _ ht rfl (hg _ rfl)
    rw [hc]; simp

theorem env_receipt {w w' : World} {op : Op} {rc : Receipt} (h : step w op = .ok (w', rc))
    (ho : Spec.NoInstruction op) : rc = noReceipt := by
  cases op <;> simp only [step, bind_eq_ok, require_eq_ok, load_eq_ok, exists_const, pure_eq_ok, ok_eq_ok,
    Prod.mk.injEq] at h
  case tick s => exact h.2.symm
  case setTok a t => exact h.2.2.2.symm
  case donate v n => obtain ⟨_, _, _, _, h⟩ := h; exact h.symm
  case freezeVault v b => obtain ⟨_, _, _, h⟩ := h; exact h.symm
  case setMint a m => exact h.2.2.2.symm
  case ix tx i => exact absurd ho id

/-- C86. A hook is asked at every transfer between two accounts of its mint, with what is transferred and the accounts
as they are after it. The instruction succeeds only if it accepts and calls neither the presale program nor Token-2022,
and its state afterwards is the one it chose. -/
theorem C86_consulted {σ : Type} {H : Addr → HookProgram σ} {s s' : σ} {w w' : World} {tx : Tx} {i : Ix}
    {rc : Receipt} (h : execHooked H s w tx i = .ok (s', w', rc)) {c : Cpi} (hc : c ∈ rc.cpis) {prog mint : Addr}
    (hk : Spec.Hooked w prog mint c) :
    ∃ w0 calls, execIx w tx i = .ok (w0, rc) ∧ H prog s c w0.tk = some (s', calls) ∧ HookCall.reenter ∉ calls := by
  rcases execHooked_ok h with ⟨_, _, hno⟩ | ⟨w0, x, src, dst, auth, n, fee, m, pr, calls, hx, e, _, hm, hp, hH, hcs, _⟩
  · exact absurd hk (hno c hc prog mint)
  · rw [e, List.mem_singleton] at hc
    subst hc
    obtain ⟨_, _, m', h1, h2⟩ := hk
    rw [hm] at h1
    cases h1
    rw [hp] at h2
    cases h2
    exact ⟨w0, calls, hx, hH, (execCalls_ok hcs).1⟩

/-- C86. A hook that calls back into the presale program or Token-2022 makes every instruction that transfers its mint
fail: there is no re-entrancy. -/
theorem C86_no_reentry {σ : Type} {H : Addr → HookProgram σ} {prog : Addr}
    (hR : ∀ s c k s' calls, H prog s c k = some (s', calls) → HookCall.reenter ∈ calls)
    {s s' : σ} {w w' : World} {tx : Tx} {i : Ix} {rc : Receipt} (h : execHooked H s w tx i = .ok (s', w', rc)) :
    ∀ c ∈ rc.cpis, ∀ mint, ¬ Spec.Hooked w prog mint c := by
  intro c hc mint hk
  obtain ⟨_, calls, _, h1, h2⟩ := C86_consulted h hc hk
  exact h2 (hR _ _ _ _ _ h1)

/-- C86. An instruction gets through with hooks exactly when it does without them and the hook of the transferred mint,
if any, accepts with calls that succeed. In particular a hook can hold up a sale: no refund, claim or withdrawal of a
mint gets past a hook that refuses. -/
theorem C86_exact {σ : Type} {H : Addr → HookProgram σ} {s : σ} {w : World} {tx : Tx} {i : Ix} :
    (∃ r, execHooked H s w tx i = .ok r) ↔
      ∃ w0 rc, execIx w tx i = .ok (w0, rc) ∧ ∀ c ∈ rc.cpis, ∀ prog mint, Spec.Hooked w prog mint c →
        ∃ s' calls k', H prog s c w0.tk = some (s', calls) ∧ execCalls w0.tk calls = .ok k' := by
  constructor
  · rintro ⟨⟨s', w', rc⟩, h⟩
    rcases execHooked_ok h with ⟨hx, _, hno⟩ |
      ⟨w0, x, src, dst, auth, n, fee, m, pr, calls, hx, e, _, hm, hp, hH, hcs, _⟩
    · exact ⟨w', rc, hx, fun c hc prog mint hk => absurd hk (hno c hc prog mint)⟩
    · refine ⟨w0, rc, hx, fun c hc prog mint hk => ?_⟩
      rw [e, List.mem_singleton] at hc
      subst hc
      obtain ⟨_, _, m', h1, h2⟩ := hk
      rw [hm] at h1
      cases h1
      rw [hp] at h2
      cases h2
      exact ⟨s', calls, _, hH, hcs⟩
  · rintro ⟨w0, rc, hx, hH⟩
    by_cases hno : ∀ c ∈ rc.cpis, ∀ prog mint, ¬ Spec.Hooked w prog mint c
    · exact ⟨_, execHooked_of hx (s' := s) (k' := w0.tk)
        (fun c hc prog mint hk => absurd hk (hno c hc prog mint)) (fun _ => ⟨rfl, rfl⟩)⟩
    · simp only [not_forall, not_not] at hno
      obtain ⟨c, hc, prog, mint, hk⟩ := hno
      obtain ⟨s', calls, k', h1, h2⟩ := hH c hc prog mint hk
      refine ⟨_, execHooked_of hx (s' := s') (k' := k') ?_ ?_⟩
      · intro c' hc' prog' mint' hk'
        have one : rc.cpis.length ≤ 1 := cpis_le_one hx
        have : c' = c := by
          match hl : rc.cpis with
          | [] => rw [hl] at hc; cases hc
          | [y] => rw [hl, List.mem_singleton] at hc hc'; rw [hc, hc']
          | y :: z :: l => rw [hl] at one; simp at one
        subst this
        have : prog' = prog := by
          cases c' with
          | transfer x src dst auth n fee =>
            obtain ⟨_, _, m, a1, a2⟩ := hk
            obtain ⟨_, _, m', b1, b2⟩ := hk'
            rw [a1] at b1
            cases b1
            rw [a2] at b2
            cases b2
            rfl
          | burn x src n => exact absurd hk id
        subst this
        exact ⟨calls, h1, h2⟩
      · intro hall
        exact absurd hk (hall c hc prog mint)

/-! ## A hook that counts -/

/-- A hook program that counts the transfers of each mint, as the one of the test suite does
(`idls/transfer_hook_counter.json`). The states of all programs of this kind are kept in one table. -/
def countHook (prog : Addr) : HookProgram (Addr → Addr → Nat) := fun s c _ =>
  match c with
  | .transfer mint _ _ _ _ _ => some (fun p x => if p = prog ∧ x = mint then s p x + 1 else s p x, [])
  | .burn _ _ _ => some (s, [])

/-- Transfers with the hook in a history. -/
def Spec.hookedAlong {σ : Type} (H : Addr → HookProgram σ) (prog mint : Addr) (h : HWorld σ) : List (HOp σ) → Nat
  | [] => 0
  | op :: ops =>
    (match hstep H h op with
      | .ok (_, rc) => Spec.hookedIn h.w prog mint rc
      | .error _ => 0) + Spec.hookedAlong H prog mint (happly H h op) ops

theorem count_ix {s s' : Addr → Addr → Nat} {w w' : World} {tx : Tx} {i : Ix} {rc : Receipt} (prog mint : Addr)
    (h : execHooked countHook s w tx i = .ok (s', w', rc)) :
    s' prog mint = s prog mint + Spec.hookedIn w prog mint rc := by
  rcases execHooked_ok h with ⟨_, rfl, hno⟩ | ⟨w0, x, src, dst, auth, n, fee, m, pr, calls, _, e, hne, hm, hp, hH, _, _⟩
  · have : rc.cpis.filter (fun c => decide (Spec.Hooked w prog mint c)) = [] := by
      rw [List.filter_eq_nil_iff]
      intro c hc
      simpa using hno c hc prog mint
    rw [Spec.hookedIn, this]
    rfl
  · simp only [countHook, Option.some.injEq, Prod.mk.injEq] at hH
    obtain ⟨rfl, _⟩ := hH
    rw [Spec.hookedIn, e]
    by_cases hh : prog = pr ∧ mint = x
    · obtain ⟨rfl, rfl⟩ := hh
      have : Spec.Hooked w prog mint (.transfer mint src dst auth n fee) := ⟨rfl, hne, m, hm, hp⟩
      simp [this]
    · have : ¬ Spec.Hooked w prog mint (.transfer x src dst auth n fee) := by
        rintro ⟨rfl, _, m', h1, h2⟩
        rw [hm] at h1
        cases h1
        rw [hp] at h2
        cases h2
        exact hh ⟨rfl, rfl⟩
      simp [this, hh]

/-- C86. As long as nobody else calls it, the counter of such a hook for a mint is its initial value plus the number of
transfers of the mint in the receipts of the history: hooks see every transfer, once, and no others. -/
theorem C86_counter (prog mint : Addr) (h : HWorld (Addr → Addr → Nat)) (ops : List (HOp (Addr → Addr → Nat)))
    (hno : ∀ s, HOp.poke s ∉ ops) :
    (hrun countHook h ops).s prog mint = h.s prog mint + Spec.hookedAlong countHook prog mint h ops := by
  induction ops generalizing h with
  | nil => rfl
  | cons op ops ih =>
    have hno' : ∀ s, HOp.poke s ∉ ops := fun s hs => hno s (List.mem_cons_of_mem _ hs)
    show (hrun countHook (happly countHook h op) ops).s prog mint = _
    rw [ih _ hno', Spec.hookedAlong, ← Nat.add_assoc]
    congr 1
    cases hs : hstep countHook h op with
    | error e => simp only [happly, hs, Nat.add_zero]
    | ok r =>
      obtain ⟨h', rc⟩ := r
      simp only [happly, hs]
      cases op with
      | env o =>
        cases o with
        | ix tx i => cases hs
        | _ =>
          simp only [hstep, bind_eq_ok, Prod.exists, pure_eq_ok, Prod.mk.injEq] at hs
          obtain ⟨w1, rc1, h1, rfl, rfl⟩ := hs
          rw [env_receipt h1 trivial]
          rfl
      | ix tx i =>
        simp only [hstep, bind_eq_ok, Prod.exists, pure_eq_ok, Prod.mk.injEq] at hs
        obtain ⟨s1, w1, rc1, h1, rfl, rfl⟩ := hs
        exact count_ix prog mint h1
      | poke s => exact absurd List.mem_cons_self (hno s)


namespace Ex

def hookedDeposit (owner tok : Addr) (n : Nat) : DepositAcc :=
  { depositAcc owner tok n with slices := [⟨.transferHookQuote, 2⟩], remaining := [.key 78, .key 77] }
def hookedRefund (owner tok : Addr) : RefundAcc :=
  { refundAcc owner tok with slices := [⟨.transferHookQuote, 2⟩], remaining := [.key 78, .key 77] }

/-- A sale whose quote mint gets a hook after creation; two deposits, the sale fails, one refund. -/
def hookedOps : List (HOp (Addr → Addr → Nat)) :=
  [.env hookedMint, .ix bothSign (.initPresale (initArgs 1 0 0 reg1)), .env (.tick 10),
   .ix (tx [alice]) (.createEscrow ⟨sale, alice, alice⟩), .ix (tx [bob]) (.createEscrow ⟨sale, bob, bob⟩),
   .ix (tx [alice]) (.deposit (hookedDeposit alice aliceQuote 50)),
   .ix (tx [bob]) (.deposit (hookedDeposit bob bobQuote 20)), .env (.tick 2000),
   .ix (tx [alice]) (.refund (hookedRefund alice aliceQuote))]

def hookedStart : HWorld (Addr → Addr → Nat) := ⟨genesis, fun _ _ => 0⟩

/-- Three transfers of the quote mint are counted, and none of the base mint, which has no hook. -/
example : (hrun countHook hookedStart hookedOps).s (.key 77) qm = 3 ∧
    (hrun countHook hookedStart hookedOps).s (.key 77) bm = 0 ∧
    Spec.hookedAlong countHook (.key 77) qm hookedStart hookedOps = 3 := by decide +kernel

/-- A hook that empties the payer's other account, sends tokens to the vault and freezes it. -/
def meddler : Addr → HookProgram Unit := fun _ _ _ _ =>
  some ((), [.setTok bobQuote none, .donate (.quoteVault sale) 5, .freezeVault (.quoteVault sale) true])
/-- A hook that calls the presale program. -/
def caller : Addr → HookProgram Unit := fun _ _ _ _ => some ((), [.donate (.quoteVault sale) 5, .reenter])
/-- A hook that refuses. -/
def refuser : Addr → HookProgram Unit := fun _ _ _ _ => none

def beforeDeposit : World := (hrun countHook hookedStart (hookedOps.take 5)).w
def plainDeposit : World := apply beforeDeposit (.ix (tx [alice]) (.deposit (hookedDeposit alice aliceQuote 50)))
def hookedDone (H : Addr → HookProgram Unit) : Option World :=
  (execHooked H () beforeDeposit (tx [alice]) (.deposit (hookedDeposit alice aliceQuote 50))).toOption.map (·.2.1)

/-- The deposit goes through with the first, and its record is the same; the vault holds the five tokens more. The other
two make it fail. -/
example : (hookedDone meddler).map (fun w => (w.tk.toks (.quoteVault sale)).map (fun t => (t.amount, t.frozen)))
      = some (some (57, true)) ∧
    (plainDeposit.tk.toks (.quoteVault sale)).map (fun t => (t.amount, t.frozen)) = some (52, false) ∧
    (hookedDone meddler).map (fun w => w.presales sale) = some (plainDeposit.presales sale) ∧
    (hookedDone caller).isNone = true ∧ (hookedDone refuser).isNone = true := by decide +kernel

/-- The deposit is one of the transfers the theorems speak of. -/
example : ((execHooked meddler () beforeDeposit (tx [alice]) (.deposit (hookedDeposit alice aliceQuote 50))).toOption.map
    fun r => decide (∃ c ∈ r.2.2.cpis, Spec.Hooked beforeDeposit (.key 77) qm c)) = some true := by decide +kernel

end Ex

end Verif
