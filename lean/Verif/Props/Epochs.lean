import Verif.SpecEpochs
import Verif.Lemmas.Flow
import Verif.Lemmas.Origin
import Verif.Props.TransferFee
import Verif.Examples
/-!
# C83: transfer fees by epoch
-/

namespace Verif

/-! ## The ledger seen through the configurations -/

/-- The ledger of this model is one of the plain model, and shows the fees of the current epoch. -/
structure EInv (e : EWorld) : Prop where
  reach : Reachable e.w
  fees : ∀ a m, e.w.tk.mints a = some m → m.fee = e.feeIn e.epoch a
  range : ∀ a c, e.configs.get? a = some c → c.older.fee.inRange = true ∧ c.newer.fee.inRange = true

theorem FeeConfig.during_inRange {c : FeeConfig} (h : c.older.fee.inRange = true ∧ c.newer.fee.inRange = true)
    (t : Nat) : (c.during t).inRange = true := by
  unfold FeeConfig.during; split
  · exact h.2
  · exact h.1

theorem EInv.feeIn {e : EWorld} (I : EInv e) {a : Addr} {t : Nat} {f : TransferFee} (h : e.feeIn t a = some f) :
    f.inRange = true := by
  unfold EWorld.feeIn at h
  cases hc : e.configs.get? a with
  | none => rw [hc] at h; cases h
  | some c =>
    rw [hc] at h
    obtain rfl := Option.some.inj h
    exact FeeConfig.during_inRange (I.range a c hc) t

/-- A step of the plain model changes fees only by `setMint`. -/
theorem step_fees {w w' : World} {o : Op} {rc : Receipt} (W : WInv w) (h : step w o = .ok (w', rc)) {a : Addr} :
    (∀ m, w'.tk.mints a = some m → (∃ m0, w.tk.mints a = some m0 ∧ m.fee = m0.fee) ∨ o = .setMint a m) ∧
    ((w.tk.mints a).isSome → (w'.tk.mints a).isSome) := by
  have same : w'.tk.mints = w.tk.mints →
      (∀ m, w'.tk.mints a = some m → (∃ m0, w.tk.mints a = some m0 ∧ m.fee = m0.fee) ∨ o = .setMint a m) ∧
      ((w.tk.mints a).isSome → (w'.tk.mints a).isSome) := by
    intro e
    rw [e]
    exact ⟨fun m hm => .inl ⟨m, hm, rfl⟩, id⟩
  cases o with
  | tick s =>
    simp only [Verif.step, ok_eq_ok, Prod.mk.injEq] at h
    obtain ⟨rfl, _⟩ := h
    exact same rfl
  | setTok b t =>
    simp only [Verif.step, bind_eq_ok, require_eq_ok, pure_eq_ok, exists_const, Prod.mk.injEq] at h
    obtain ⟨_, _, rfl, _⟩ := h
    exact same rfl
  | donate v n =>
    simp only [Verif.step, bind_eq_ok, require_eq_ok, load_eq_ok, pure_eq_ok, exists_const, Prod.mk.injEq] at h
    obtain ⟨_, _, _, rfl, _⟩ := h
    exact same rfl
  | freezeVault v b =>
    simp only [Verif.step, bind_eq_ok, load_eq_ok, pure_eq_ok, Prod.mk.injEq] at h
    obtain ⟨_, _, rfl, _⟩ := h
    exact same rfl
  | setMint b m1 =>
    simp only [Verif.step, bind_eq_ok, require_eq_ok, pure_eq_ok, exists_const, Prod.mk.injEq] at h
    obtain ⟨_, h2, rfl, _⟩ := h
    by_cases hb : a = b
    · subst hb
      simp only [upd_self]
      exact ⟨fun m hm => .inr (by rw [Option.some.inj hm]), fun _ => rfl⟩
    · simp only [upd_other _ _ hb]
      exact ⟨fun m hm => .inl ⟨m, hm, rfl⟩, id⟩
  | ix tx i =>
    obtain ⟨k, src, n, O, M, _⟩ := ix_flow W h
    have hk := O.mints
    refine ⟨fun m hm => .inl ?_, fun hs => ?_⟩
    · cases h0 : w.tk.mints a with
      | none =>
        rw [M.mintsNone a (by rw [hk]; exact h0)] at hm; cases hm
      | some m0 =>
        obtain ⟨m', h1, _, _, _, h5, _⟩ := M.mints a m0 (by rw [hk]; exact h0)
        rw [hm] at h1
        obtain rfl := Option.some.inj h1
        exact ⟨m0, rfl, h5⟩
    · obtain ⟨m0, h0⟩ := Option.isSome_iff_exists.1 hs
      obtain ⟨m', h1, _⟩ := M.mints a m0 (by rw [hk]; exact h0)
      rw [h1]; rfl

/-- The ledger with other mints. -/
def World.withMints (w : World) (f : Addr → Option MintInfo) : World := { w with tk := { w.tk with mints := f } }

/-- The fees of a list of mints are replaced, one at a time. -/
def refresh (fee : Addr → Option TransferFee) : World → List Addr → List Op
  | _, [] => []
  | w, a :: as =>
    match w.tk.mints a with
    | none => refresh fee w as
    | some m => .setMint a { m with fee := fee a } :: refresh fee (apply w (.setMint a { m with fee := fee a })) as

theorem setMint_fee {w : World} {a : Addr} {m : MintInfo} (hm : w.tk.mints a = some m) {f : Option TransferFee}
    (hw : m.supply < u64Bound) (hf : ∀ x ∈ f, x.inRange = true) :
    apply w (.setMint a { m with fee := f }) =
      w.withMints (upd w.tk.mints a (some { m with fee := f })) := by
  apply apply_ok (rc := noReceipt)
  simp only [Verif.step, bind_eq_ok, require_eq_ok, pure_eq_ok, exists_const, Prod.mk.injEq, and_true]
  refine ⟨?_, ?_, rfl⟩
  · unfold MintInfo.wellFormed
    cases f with
    | none => simpa using hw
    | some x =>
      have := hf x rfl
      unfold TransferFee.inRange at this
      simp only [Bool.and_eq_true, decide_eq_true_eq] at this ⊢
      exact ⟨hw, this⟩
  · intro old ho _
    rw [hm] at ho
    obtain rfl := Option.some.inj ho
    exact ⟨rfl, rfl, Ext.grown_refl _⟩

theorem run_refresh {fee : Addr → Option TransferFee} (hf : ∀ a, ∀ x ∈ fee a, x.inRange = true) (as : List Addr)
    {w : World} (hs : ∀ a m, w.tk.mints a = some m → m.supply < u64Bound) :
    Verif.run w (refresh fee w as) = w.withMints fun a =>
      if a ∈ as then (w.tk.mints a).map fun m => { m with fee := fee a } else w.tk.mints a := by
  induction as generalizing w with
  | nil => simp [refresh, Verif.run, World.withMints]
  | cons b as ih =>
    unfold refresh
    cases hb : w.tk.mints b with
    | none =>
      simp only
      rw [ih hs]
      congr 1
      funext a
      by_cases h1 : a ∈ as
      · rw [if_pos h1, if_pos (List.mem_cons_of_mem _ h1)]
      · rw [if_neg h1]
        by_cases h2 : a = b
        · subst h2; rw [if_pos List.mem_cons_self, hb]; rfl
        · rw [if_neg (by simp [h1, h2])]
    | some m =>
      simp only [Verif.run]
      rw [setMint_fee hb (hs b m hb) (hf b), ih]
      · refine congrArg w.withMints ?_
        funext a
        simp only [World.withMints]
        by_cases h2 : a = b
        · subst h2
          rw [if_pos List.mem_cons_self, upd_self, hb]
          split <;> rfl
        · rw [upd_other _ _ h2]
          by_cases h1 : a ∈ as
          · rw [if_pos h1, if_pos (List.mem_cons_of_mem _ h1)]
          · rw [if_neg h1, if_neg (by simp [h1, h2])]
      · intro a m' h'
        simp only [World.withMints] at h'
        by_cases h2 : a = b
        · subst h2
          rw [upd_self] at h'
          obtain rfl := Option.some.inj h'
          exact hs a m hb
        · rw [upd_other _ _ h2] at h'
          exact hs a m' h'

theorem wellFormed_supply {m : MintInfo} (h : m.wellFormed = true) : m.supply < u64Bound := by
  unfold MintInfo.wellFormed at h
  simp only [Bool.and_eq_true, decide_eq_true_eq] at h
  exact h.1

theorem EInv.step {e e' : EWorld} {o : EOp} {rc : Receipt} (I : EInv e) (h : estep e o = .ok (e', rc)) : EInv e' := by
  cases o with
  | op o =>
    have key : ∃ w', Verif.step e.w o = .ok (w', rc) ∧ e' = { e with w := w' } ∧
        ∀ a m, o = .setMint a m → m.fee = e.feeIn e.epoch a := by
      cases o
      case setMint a m =>
        simp only [estep, bind_eq_ok, require_eq_ok, pure_eq_ok, exists_const, Prod.mk.injEq] at h
        obtain ⟨h1, ⟨w', rc'⟩, h2, rfl, rfl⟩ := h
        exact ⟨w', h2, rfl, by rintro _ _ ⟨⟩; exact h1⟩
      all_goals
        simp only [estep, bind_eq_ok, pure_eq_ok, Prod.mk.injEq] at h
        obtain ⟨⟨w', rc'⟩, h2, rfl, rfl⟩ := h
        exact ⟨w', h2, rfl, by rintro _ _ ⟨⟩⟩
    obtain ⟨w', h1, rfl, h2⟩ := key
    refine ⟨I.reach.step h1, ?_, I.range⟩
    intro a m hm
    rcases (step_fees I.reach.winv h1).1 m hm with ⟨m0, h3, h4⟩ | h3
    · rw [h4]; exact I.fees a m0 h3
    · exact h2 a m h3
  | nextEpoch =>
    simp only [estep, ok_eq_ok, Prod.mk.injEq] at h
    obtain ⟨rfl, _⟩ := h
    refine ⟨?_, ?_, I.range⟩
    · have := run_refresh (fee := e.feeIn (e.epoch + 1)) (fun a x hx => I.feeIn hx) (AMap.keys e.configs)
        (w := e.w) (fun a m hm => wellFormed_supply (I.reach.winv.core.mints a m hm))
      have R := I.reach.run (refresh (e.feeIn (e.epoch + 1)) e.w (AMap.keys e.configs))
      rw [this] at R
      refine cast (congrArg (fun f => Reachable (e.w.withMints f)) ?_) R
      funext a
      by_cases ha : a ∈ AMap.keys e.configs
      · rw [if_pos ha]
      · rw [if_neg ha]
        have hn := AMap.get?_none_iff.2 ha
        cases hm : e.w.tk.mints a with
        | none => rfl
        | some m =>
          have := I.fees a m hm
          unfold EWorld.feeIn at this ⊢
          rw [hn] at this ⊢
          simp only [Option.map_none, Option.map_some] at this ⊢
          rw [← this]
    · intro a m hm
      simp only [Option.map_eq_some_iff] at hm
      obtain ⟨m0, _, rfl⟩ := hm
      rfl
  | newMint b m f =>
    simp only [estep, bind_eq_ok, require_eq_ok, pure_eq_ok, exists_const, Prod.mk.injEq] at h
    obtain ⟨h1, h2, ⟨w', rc'⟩, h3, rfl, rfl⟩ := h
    refine ⟨I.reach.step h3, ?_, ?_⟩
    · intro a m' hm
      simp only [EWorld.feeIn, AMap.get?_set]
      rcases (step_fees I.reach.winv h3).1 m' hm with ⟨m0, h4, h5⟩ | h4
      · have hb : a ≠ b := by rintro rfl; rw [h1] at h4; cases h4
        rw [if_neg hb, h5]; exact I.fees a m0 h4
      · injection h4 with h4 h5
        subst h4 h5
        rw [if_pos rfl]
        simp [FeeConfig.during, FeeConfig.new]
    · intro a c hc
      simp only [AMap.get?_set] at hc
      split at hc
      · obtain rfl := Option.some.inj hc
        exact ⟨h2, h2⟩
      · exact I.range a c hc
  | announce b f =>
    simp only [estep, bind_eq_ok, require_eq_ok, load_eq_ok, pure_eq_ok, exists_const, Prod.mk.injEq] at h
    obtain ⟨c, h1, h2, rfl, rfl⟩ := h
    refine ⟨I.reach, ?_, ?_⟩
    · intro a m hm
      rw [I.fees a m hm]
      simp only [EWorld.feeIn, AMap.get?_set]
      split
      · rename_i hb; subst hb
        rw [h1]
        simp only [Option.map_some, FeeConfig.during, FeeConfig.announce]
        rw [if_neg (show ¬ e.epoch ≥ e.epoch + 2 by omega)]
        congr 1
        by_cases hc : c.newer.epoch ≤ e.epoch
        · rw [if_pos hc, if_pos hc]
        · rw [if_neg hc, if_neg hc]
      · rfl
    · intro a c' hc
      simp only [AMap.get?_set] at hc
      split at hc
      · obtain rfl := Option.some.inj hc
        refine ⟨?_, h2⟩
        simp only [FeeConfig.announce]
        split
        · exact (I.range b c h1).2
        · exact (I.range b c h1).1
      · exact I.range a c' hc

theorem EInv.apply {e : EWorld} (I : EInv e) (o : EOp) : EInv (eapply e o) := by
  unfold eapply
  cases h : estep e o with
  | error _ => exact I
  | ok x => exact I.step (e' := x.1) (rc := x.2) h

theorem EInv.run {e : EWorld} (I : EInv e) (os : List EOp) : EInv (erun e os) := by
  induction os generalizing e with
  | nil => exact I
  | cons o os ih => exact ih (I.apply o)

theorem EReachable.inv {e : EWorld} (R : EReachable e) : EInv e := by
  obtain ⟨e0, os, G, rfl⟩ := R
  exact EInv.run ⟨⟨e0.w, [], G.genesis, rfl⟩, G.fees, G.range⟩ os

/-! ## One mint through a history -/

theorem eapply_cases (e : EWorld) (o : EOp) : eapply e o = e ∨ ∃ rc, estep e o = .ok (eapply e o, rc) := by
  unfold eapply
  cases h : estep e o with
  | error _ => exact .inl rfl
  | ok x => exact .inr ⟨x.2, rfl⟩

/-- What a step does to a mint that exists, its configuration and the epoch. -/
theorem eapply_mint {e : EWorld} (I : EInv e) (o : EOp) {a : Addr} (hm : (e.w.tk.mints a).isSome) :
    ((eapply e o).w.tk.mints a).isSome ∧
    (eapply e o).epoch = e.epoch + Spec.epochs [o] ∧
    (eapply e o).configs.get? a =
      (e.configs.get? a).map fun c => (Spec.notices a e [o]).foldl (fun c n => c.announce n.1 n.2) c := by
  have idle : Spec.notices a e [o] = [] → Spec.epochs [o] = 0 → eapply e o = e →
      ((eapply e o).w.tk.mints a).isSome ∧
      (eapply e o).epoch = e.epoch + Spec.epochs [o] ∧
      (eapply e o).configs.get? a =
        (e.configs.get? a).map fun c => (Spec.notices a e [o]).foldl (fun c n => c.announce n.1 n.2) c := by
    intro h1 h2 h3
    rw [h1, h2, h3]
    exact ⟨hm, rfl, by simp⟩
  cases o with
  | op o =>
    have hn : Spec.notices a e [.op o] = [] := rfl
    have he : Spec.epochs [.op o] = 0 := rfl
    rcases eapply_cases e (.op o) with h | ⟨rc, h⟩
    · exact idle hn he h
    · have key : ∃ w', Verif.step e.w o = .ok (w', rc) ∧ eapply e (.op o) = { e with w := w' } := by
        generalize eapply e (.op o) = e' at h
        cases o
        case setMint a m =>
          simp only [estep, bind_eq_ok, require_eq_ok, pure_eq_ok, exists_const, Prod.mk.injEq] at h
          obtain ⟨h1, ⟨w', rc'⟩, h2, rfl, rfl⟩ := h
          exact ⟨w', h2, rfl⟩
        all_goals
          simp only [estep, bind_eq_ok, pure_eq_ok, Prod.mk.injEq] at h
          obtain ⟨⟨w', rc'⟩, h2, rfl, rfl⟩ := h
          exact ⟨w', h2, rfl⟩
      obtain ⟨w', h1, h2⟩ := key
      rw [h2, hn, he]
      exact ⟨(step_fees I.reach.winv h1).2 hm, rfl, by simp⟩
  | nextEpoch =>
    refine ⟨?_, rfl, ?_⟩
    · simp only [eapply, estep, Option.isSome_map]; exact hm
    · simp [eapply, estep, Spec.notices]
  | newMint b m f =>
    rcases eapply_cases e (.newMint b m f) with h | ⟨rc, h⟩
    · exact idle rfl rfl h
    · generalize hx : eapply e (.newMint b m f) = e' at h
      simp only [estep, bind_eq_ok, require_eq_ok, pure_eq_ok, exists_const, Prod.mk.injEq] at h
      obtain ⟨h1, h2, ⟨w', rc'⟩, h3, rfl, rfl⟩ := h
      have hb : a ≠ b := by rintro rfl; rw [h1] at hm; cases hm
      refine ⟨(step_fees I.reach.winv h3).2 hm, rfl, ?_⟩
      simp [AMap.get?_set, hb, Spec.notices]
  | announce b f =>
    have hn : Spec.notices a e [.announce b f] =
      if b = a ∧ (e.configs.get? a).isSome ∧ f.inRange = true then [(e.epoch, f)] else [] := by
      simp [Spec.notices]
    have he : Spec.epochs [.announce b f] = 0 := rfl
    by_cases hb : b = a
    · subst hb
      cases hc : e.configs.get? b with
      | none =>
        refine hc ▸ idle ?_ rfl ?_
        · rw [hn, hc]; simp
        · simp [eapply, estep, hc, load, bind, Except.bind]
      | some c =>
        by_cases hf : f.inRange = true
        · have : eapply e (.announce b f) = { e with configs := e.configs.set b (c.announce e.epoch f) } := by
            simp [eapply, estep, hc, load, require, hf, bind, Except.bind, pure, Except.pure]
          rw [this, hn, hc, he]
          simp [hf, hm, AMap.get?_set]
        · refine hc ▸ idle ?_ rfl ?_
          · rw [hn]; simp [hf]
          · simp [eapply, estep, hc, load, require, hf, bind, Except.bind]
    · rw [hn, he]
      rcases eapply_cases e (.announce b f) with h | ⟨rc, h⟩
      · rw [h]; simp [hb, hm]
      · generalize hx : eapply e (.announce b f) = e' at h
        simp only [estep, bind_eq_ok, require_eq_ok, load_eq_ok, pure_eq_ok, exists_const, Prod.mk.injEq] at h
        obtain ⟨c, h1, h2, rfl, rfl⟩ := h
        have hb' : a ≠ b := fun h => hb h.symm
        simp [AMap.get?_set, hb, hb', hm]

theorem notices_cons (a : Addr) (e : EWorld) (o : EOp) (os : List EOp) :
    Spec.notices a e (o :: os) = Spec.notices a e [o] ++ Spec.notices a (eapply e o) os := by
  simp [Spec.notices]

theorem epochs_cons (o : EOp) (os : List EOp) : Spec.epochs (o :: os) = Spec.epochs [o] + Spec.epochs os := by
  cases o <;> simp [Spec.epochs]
  omega

/-- The same for a history. -/
theorem erun_mint {e : EWorld} (I : EInv e) (os : List EOp) {a : Addr} (hm : (e.w.tk.mints a).isSome) :
    ((erun e os).w.tk.mints a).isSome ∧
    (erun e os).epoch = e.epoch + Spec.epochs os ∧
    (erun e os).configs.get? a =
      (e.configs.get? a).map fun c => (Spec.notices a e os).foldl (fun c n => c.announce n.1 n.2) c := by
  induction os generalizing e with
  | nil => exact ⟨hm, rfl, by simp [erun, Spec.notices]⟩
  | cons o os ih =>
    obtain ⟨h1, h2, h3⟩ := eapply_mint I o hm
    obtain ⟨g1, g2, g3⟩ := ih (I.apply o) h1
    refine ⟨g1, ?_, ?_⟩
    · show (erun (eapply e o) os).epoch = _
      rw [g2, h2, epochs_cons o os]; omega
    · show (erun (eapply e o) os).configs.get? a = _
      rw [g3, h3, notices_cons a e o os, Option.map_map]
      congr 1
      funext c
      simp only [Function.comp_apply, List.foldl_append]

/-- Announcements are in order and made during the history. -/
theorem notices_sorted {e : EWorld} (I : EInv e) (os : List EOp) {a : Addr} (hm : (e.w.tk.mints a).isSome) :
    (∀ n ∈ Spec.notices a e os, e.epoch ≤ n.1 ∧ n.1 ≤ e.epoch + Spec.epochs os) ∧
    (Spec.notices a e os).Pairwise fun n m => n.1 ≤ m.1 := by
  induction os generalizing e with
  | nil => simp [Spec.notices]
  | cons o os ih =>
    obtain ⟨h1, h2, _⟩ := eapply_mint I o hm
    obtain ⟨g1, g2⟩ := ih (I.apply o) h1
    rw [notices_cons, epochs_cons]
    have first : ∀ n ∈ Spec.notices a e [o], n.1 = e.epoch := by
      intro n hn
      cases o <;> simp [Spec.notices] at hn
      rw [hn.2]
    refine ⟨?_, ?_⟩
    · intro n hn
      rcases List.mem_append.1 hn with h | h
      · have := first n h; omega
      · have := g1 n h; omega
    · refine List.pairwise_append.2 ⟨?_, g2, ?_⟩
      · refine List.Pairwise.imp_of_mem ?_ (List.pairwise_of_forall (l := Spec.notices a e [o]) (R := fun _ _ => True) fun _ _ => trivial)
        intro n m hn hm _
        rw [first n hn, first m hm]
      · intro n hn m hm
        have := first n hn; have := g1 m hm; omega

/-! ## The fee in force -/

theorem during_announce (c : FeeConfig) (e t : Nat) (f : TransferFee) :
    (c.announce e f).during t = if e + 2 ≤ t then f else c.during e := by
  unfold FeeConfig.during FeeConfig.announce
  simp only [ge_iff_le]
  split
  · rfl
  · split <;> rfl

theorem inForce_nil {before f : TransferFee} {t : Nat} : Spec.InForce before [] t f ↔ f = before := by
  unfold Spec.InForce
  simp

/-- A last announcement whose notice is over is in force. -/
theorem inForce_over {before f : TransferFee} {l : List Spec.Notice} {n : Spec.Notice} {t : Nat} (h : n.1 + 2 ≤ t) :
    Spec.InForce before (l ++ [n]) t f ↔ f = n.2 := by
  constructor
  · rintro (⟨l1, m, l2, h1, rfl, h3, h4, h5⟩ | ⟨_, h2⟩)
    · rcases List.eq_nil_or_concat l2 with rfl | ⟨l3, k, rfl⟩
      · have := List.append_inj_right' h1 rfl
        simp at this; rw [this]
      · rw [List.concat_eq_append, ← List.cons_append, ← List.append_assoc] at h1
        have := List.append_inj_right' h1 rfl
        simp at this; subst this
        exact absurd (by intro _ h; cases h) (h5 l3 n [] (by rw [List.concat_eq_append]) h)
    · exact absurd (by intro _ h; cases h) (h2 l n [] rfl h)
  · rintro rfl
    exact .inl ⟨l, n, [], rfl, rfl, h, (by intro _ h; cases h), by intro l3 m l4 h; simp at h⟩

/-- Until then, what was in force when it was made remains so. -/
theorem inForce_wait {before f : TransferFee} {l : List Spec.Notice} {n : Spec.Notice} {t : Nat} (h : ¬ n.1 + 2 ≤ t)
    (ht : n.1 ≤ t) : Spec.InForce before (l ++ [n]) t f ↔ Spec.InForce before l n.1 f := by
  have stands : ∀ (m : Spec.Notice) (l2 : List Spec.Notice),
      (m.1 + 2 ≤ t ∧ Spec.Stands m (l2 ++ [n])) ↔ (m.1 + 2 ≤ n.1 ∧ Spec.Stands m l2) := by
    intro m l2
    constructor
    · rintro ⟨_, h2⟩
      exact ⟨h2 n (by simp), fun k hk => h2 k (by simp [hk])⟩
    · rintro ⟨h1, h2⟩
      refine ⟨by omega, ?_⟩
      intro k hk
      rcases List.mem_append.1 hk with hk | hk
      · exact h2 k hk
      · simp at hk; subst hk; exact h1
  -- the announcements of `l ++ [n]` whose notice is over are in `l`
  have split : ∀ (l l1 : List Spec.Notice) (m : Spec.Notice) (l2 : List Spec.Notice), l ++ [n] = l1 ++ m :: l2 →
      m.1 + 2 ≤ t → ∃ l2', l2 = l2' ++ [n] ∧ l = l1 ++ m :: l2' := by
    intro l l1 m l2 h1 h2
    rcases List.eq_nil_or_concat l2 with rfl | ⟨l3, k, rfl⟩
    · have := List.append_inj_right' h1 rfl
      simp at this; subst this; exact absurd h2 h
    · rw [List.concat_eq_append, ← List.cons_append, ← List.append_assoc] at h1
      have h5 := List.append_inj_right' h1 rfl
      have h6 := List.append_inj_left' h1 rfl
      simp at h5; subst h5
      exact ⟨l3, by rw [List.concat_eq_append], h6⟩
  unfold Spec.InForce
  constructor
  · rintro (⟨l1, m, l2, h1, h2, h3, h4, h5⟩ | ⟨h1, h2⟩)
    · obtain ⟨l2', rfl, rfl⟩ := split l l1 m l2 h1 h3
      obtain ⟨g1, g2⟩ := (stands m l2').1 ⟨h3, h4⟩
      refine .inl ⟨l1, m, l2', rfl, h2, g1, g2, ?_⟩
      rintro l3 k l4 rfl h6 h7
      obtain ⟨g3, g4⟩ := (stands k l4).2 ⟨h6, h7⟩
      exact h5 l3 k (l4 ++ [n]) (by simp) g3 g4
    · refine .inr ⟨h1, ?_⟩
      rintro l1 m l2 rfl h6 h7
      obtain ⟨g3, g4⟩ := (stands m l2).2 ⟨h6, h7⟩
      exact h2 l1 m (l2 ++ [n]) (by simp) g3 g4
  · rintro (⟨l1, m, l2, rfl, h2, h3, h4, h5⟩ | ⟨h1, h2⟩)
    · obtain ⟨g1, g2⟩ := (stands m l2).2 ⟨h3, h4⟩
      refine .inl ⟨l1, m, l2 ++ [n], by simp, h2, g1, g2, ?_⟩
      intro l3 k l4 h6 h7 h8
      obtain ⟨l4', rfl, rfl⟩ := split l2 l3 k l4 h6 h7
      obtain ⟨g3, g4⟩ := (stands k l4').1 ⟨h7, h8⟩
      exact h5 l3 k l4' rfl g3 g4
    · refine .inr ⟨h1, ?_⟩
      intro l1 m l2 h6 h7 h8
      obtain ⟨l2', rfl, rfl⟩ := split l l1 m l2 h6 h7
      obtain ⟨g3, g4⟩ := (stands m l2').1 ⟨h7, h8⟩
      exact h2 l1 m l2' rfl g3 g4

/-- A configuration follows its announcements. -/
theorem during_inForce {c : FeeConfig} {start : Nat} (hc : c.newer.epoch ≤ start) (l : List Spec.Notice) :
    ∀ t, start ≤ t → (∀ n ∈ l, start ≤ n.1 ∧ n.1 ≤ t) → (l.Pairwise fun n m => n.1 ≤ m.1) → ∀ f,
      (l.foldl (fun c n => c.announce n.1 n.2) c).during t = f ↔ Spec.InForce c.newer.fee l t f := by
  induction l using List.reverseRecOn with
  | nil =>
    intro t ht _ _ f
    rw [inForce_nil]
    rw [List.foldl_nil]
    unfold FeeConfig.during
    rw [if_pos (show t ≥ c.newer.epoch by omega)]
    exact eq_comm
  | append_singleton l n ih =>
    intro t ht hl hs f
    obtain ⟨s1, _, s3⟩ := List.pairwise_append.1 hs
    rw [List.foldl_append]
    simp only [List.foldl_cons, List.foldl_nil]
    rw [during_announce]
    have hn := hl n (by simp)
    by_cases h : n.1 + 2 ≤ t
    · rw [if_pos h, inForce_over h]; exact eq_comm
    · rw [if_neg h, inForce_wait h hn.2]
      exact ih n.1 hn.1 (fun m hm => ⟨(hl m (by simp [hm])).1, s3 m hm n (by simp)⟩) s1 f

/-! ## C83 -/

/-- **C83** (refinement). With fees that change only by epoch, every reachable state is one of the plain model, so every
other claim holds of it; and each mint shows the fee its configuration gives for the current epoch. -/
theorem C83_ledger {e : EWorld} (R : EReachable e) :
    Reachable e.w ∧ ∀ a m, e.w.tk.mints a = some m →
      m.fee = (e.configs.get? a).map fun c => if e.epoch < c.newer.epoch then c.older.fee else c.newer.fee := by
  refine ⟨R.inv.reach, fun a m hm => ?_⟩
  rw [R.inv.fees a m hm]
  unfold EWorld.feeIn FeeConfig.during
  congr 1
  funext c
  by_cases h : c.newer.epoch ≤ e.epoch
  · rw [if_pos h, if_neg (by omega)]
  · rw [if_neg h, if_pos (by omega)]

/-- **C83** (the fee in force). From a state in which no change is pending, whatever happens: the mint is still there,
and its fee is the last announced one whose two epochs of notice passed without another announcement and are over, or
the one it had. -/
theorem C83_in_force {e : EWorld} (R : EReachable e) {a : Addr} {m : MintInfo} {c : FeeConfig} {before : TransferFee}
    (hm : e.w.tk.mints a = some m) (hc : e.configs.get? a = some c) (hs : c.newer.epoch ≤ e.epoch)
    (hb : m.fee = some before) (os : List EOp) :
    ∃ m', (erun e os).w.tk.mints a = some m' ∧
      ∀ f, m'.fee = some f ↔ Spec.InForce before (Spec.notices a e os) (e.epoch + Spec.epochs os) f := by
  have I := R.inv
  have hm' : (e.w.tk.mints a).isSome := by rw [hm]; rfl
  obtain ⟨h1, h2, h3⟩ := erun_mint I os hm'
  obtain ⟨m', h4⟩ := Option.isSome_iff_exists.1 h1
  refine ⟨m', h4, fun f => ?_⟩
  obtain ⟨s1, s2⟩ := notices_sorted I os hm'
  have h0 : before = c.newer.fee := by
    have := I.fees a m hm
    unfold EWorld.feeIn FeeConfig.during at this
    rw [hb, hc, Option.map_some, if_pos hs] at this
    exact Option.some.inj this
  rw [(I.run os).fees a m' h4, h0, ← during_inForce hs _ _ (by omega) s1 s2 f]
  unfold EWorld.feeIn
  rw [h3, hc, h2]
  simp

/-- **C83** (the fee in force, from the creation of the mint). -/
theorem C83_created {e e1 : EWorld} (R : EReachable e) {a : Addr} {m : MintInfo} {f0 : TransferFee} {rc : Receipt}
    (h : estep e (.newMint a m f0) = .ok (e1, rc)) (os : List EOp) :
    ∃ m', (erun e1 os).w.tk.mints a = some m' ∧
      ∀ f, m'.fee = some f ↔ Spec.InForce f0 (Spec.notices a e1 os) (e.epoch + Spec.epochs os) f := by
  have R1 : EReachable e1 := by
    obtain ⟨e0, os0, G, rfl⟩ := R
    refine ⟨e0, os0 ++ [.newMint a m f0], G, ?_⟩
    have : ∀ (x : EWorld) (l : List EOp), erun x (l ++ [.newMint a m f0]) = eapply (erun x l) (.newMint a m f0) := by
      intro x l
      induction l generalizing x with
      | nil => rfl
      | cons o l ih => exact ih _
    rw [this, eapply, h]
  simp only [estep, bind_eq_ok, require_eq_ok, pure_eq_ok, exists_const, Prod.mk.injEq] at h
  obtain ⟨h1, h2, ⟨w', rc'⟩, h3, rfl, rfl⟩ := h
  simp only [Verif.step, bind_eq_ok, require_eq_ok, pure_eq_ok, exists_const, Prod.mk.injEq] at h3
  obtain ⟨_, _, rfl, _⟩ := h3
  exact C83_in_force R1 (m := { m with fee := some f0 }) (c := FeeConfig.new e.epoch f0) (upd_self _ _ _)
    (by rw [AMap.get?_set, if_pos rfl]) (Nat.le_refl _) rfl os

/-- A configuration after announcements in epochs `start` or later: in epoch `t` its fee is the one it had in some
epoch between, or an announced one whose notice is over. -/
theorem during_fold (c : FeeConfig) {start : Nat} (l : List Spec.Notice) : ∀ t, start ≤ t → t < start + 2 →
    (∀ n ∈ l, start ≤ n.1 ∧ n.1 ≤ t) → (l.Pairwise fun n m => n.1 ≤ m.1) →
    ∃ s, start ≤ s ∧ s ≤ t ∧ (l.foldl (fun c n => c.announce n.1 n.2) c).during t = c.during s := by
  induction l using List.reverseRecOn with
  | nil => intro t h1 _ _ _; exact ⟨t, h1, Nat.le_refl _, rfl⟩
  | append_singleton l n ih =>
    intro t h1 h2 hl hs
    obtain ⟨s1, _, s3⟩ := List.pairwise_append.1 hs
    have hn := hl n (by simp)
    rw [List.foldl_append]
    simp only [List.foldl_cons, List.foldl_nil]
    rw [during_announce, if_neg (by omega)]
    obtain ⟨s, g1, g2, g3⟩ := ih n.1 hn.1 (by omega)
      (fun m hm => ⟨(hl m (by simp [hm])).1, s3 m hm n (by simp)⟩) s1
    exact ⟨s, g1, by omega, g3⟩

theorem notice_core {e : EWorld} (I : EInv e) {a : Addr} {m m' : MintInfo} (hm : e.w.tk.mints a = some m)
    {os : List EOp} (ho : Spec.epochs os ≤ 1) (hm' : (erun e os).w.tk.mints a = some m') :
    ∃ s, e.epoch ≤ s ∧ s ≤ e.epoch + Spec.epochs os ∧ m'.fee = e.feeIn s a := by
  have hi : (e.w.tk.mints a).isSome := by rw [hm]; rfl
  obtain ⟨_, h2, h3⟩ := erun_mint I os hi
  obtain ⟨s1, s2⟩ := notices_sorted I os hi
  rw [(I.run os).fees a m' hm']
  unfold EWorld.feeIn
  rw [h3, h2]
  cases hc : e.configs.get? a with
  | none => exact ⟨e.epoch, Nat.le_refl _, by omega, rfl⟩
  | some c =>
    obtain ⟨s, g1, g2, g3⟩ := during_fold c (start := e.epoch) _ (e.epoch + Spec.epochs os) (by omega) (by omega) s1 s2
    exact ⟨s, g1, g2, by simp only [Option.map_some]; rw [g3]⟩

/-- **C83** (notice). Within an epoch no history changes the fee of a mint. Until the end of the next one, its fee is
the present one or the one it would have if the next epoch began at once: no fee announced from now on applies by
then. -/
theorem C83_notice {e : EWorld} (R : EReachable e) {a : Addr} {m m' : MintInfo} (hm : e.w.tk.mints a = some m)
    {os : List EOp} (hm' : (erun e os).w.tk.mints a = some m') :
    (Spec.epochs os = 0 → m'.fee = m.fee) ∧
    (Spec.epochs os = 1 → m'.fee = m.fee ∨
      ∃ m1, (eapply e .nextEpoch).w.tk.mints a = some m1 ∧ m'.fee = m1.fee) := by
  have I := R.inv
  refine ⟨fun ho => ?_, fun ho => ?_⟩
  · obtain ⟨s, h1, h2, h3⟩ := notice_core I hm (by omega) hm'
    obtain rfl : s = e.epoch := by omega
    rw [h3, I.fees a m hm]
  · obtain ⟨s, h1, h2, h3⟩ := notice_core I hm (by omega) hm'
    by_cases hs : s = e.epoch
    · subst hs
      exact .inl (by rw [h3, I.fees a m hm])
    · obtain rfl : s = e.epoch + 1 := by omega
      refine .inr ⟨{ m with fee := e.feeIn (e.epoch + 1) a }, ?_, h3⟩
      simp only [eapply, estep, hm, Option.map_some]

theorem erun_sameMint {e : EWorld} (I : EInv e) (os : List EOp) : SameMint e.w (erun e os).w := by
  induction os generalizing e with
  | nil => intro a m hm _; exact ⟨m, hm, rfl, rfl, Ext.grown_refl _⟩
  | cons o os ih =>
    have one : SameMint e.w (eapply e o).w := by
      rcases eapply_cases e o with h | ⟨rc, h⟩
      · rw [h]; intro a m hm _; exact ⟨m, hm, rfl, rfl, Ext.grown_refl _⟩
      · generalize eapply e o = e' at h
        cases o with
        | op o =>
          cases o
          case setMint a m =>
            simp only [estep, bind_eq_ok, require_eq_ok, pure_eq_ok, exists_const, Prod.mk.injEq] at h
            obtain ⟨h1, ⟨w', rc'⟩, h2, rfl, rfl⟩ := h
            exact step_sameMint I.reach.winv h2
          all_goals
            simp only [estep, bind_eq_ok, pure_eq_ok, Prod.mk.injEq] at h
            obtain ⟨⟨w', rc'⟩, h2, rfl, rfl⟩ := h
            exact step_sameMint I.reach.winv h2
        | nextEpoch =>
          simp only [estep, ok_eq_ok, Prod.mk.injEq] at h
          obtain ⟨rfl, _⟩ := h
          intro a m hm _
          exact ⟨{ m with fee := e.feeIn (e.epoch + 1) a }, by simp [hm], rfl, rfl, Ext.grown_refl _⟩
        | newMint b m f =>
          simp only [estep, bind_eq_ok, require_eq_ok, pure_eq_ok, exists_const, Prod.mk.injEq] at h
          obtain ⟨h1, h2, ⟨w', rc'⟩, h3, rfl, rfl⟩ := h
          exact step_sameMint I.reach.winv h3
        | announce b f =>
          simp only [estep, bind_eq_ok, require_eq_ok, load_eq_ok, pure_eq_ok, exists_const, Prod.mk.injEq] at h
          obtain ⟨c, h1, h2, rfl, rfl⟩ := h
          intro a m hm _; exact ⟨m, hm, rfl, rfl, Ext.grown_refl _⟩
    intro a m hm hs
    obtain ⟨m', e1, e2, e3, e4⟩ := one a m hm hs
    obtain ⟨m'', f1, f2, f3, f4⟩ := ih (I.apply o) a m' e1 (by rw [supported_congr e2 e3 e4]; exact hs)
    exact ⟨m'', f1, f2.trans e2, f3.trans e3, e4.trans f4⟩

/-- **C83** (quotes). What a transfer of a mint the program accepts costs, and what arrives of it, is the same throughout
an epoch, whatever else happens. -/
theorem C83_quote {e : EWorld} (R : EReachable e) {a : Addr} {m m' : MintInfo} (hm : e.w.tk.mints a = some m)
    (hs : isSupportedMint m = true) {os : List EOp} (ho : Spec.epochs os = 0)
    (hm' : (erun e os).w.tk.mints a = some m') (x : Nat) :
    transferFeeIncludedAmount m' x = transferFeeIncludedAmount m x ∧
    transferFeeExcludedAmount m' x = transferFeeExcludedAmount m x ∧ m'.transferFee x = m.transferFee x := by
  obtain ⟨m1, h1, h2, _⟩ := erun_sameMint R.inv os a m hm hs
  rw [hm'] at h1
  obtain rfl := Option.some.inj h1
  have hf := (C83_notice R hm hm').1 ho
  have : m'.epochFee = m.epochFee := by unfold MintInfo.epochFee; rw [h2, hf]
  unfold transferFeeIncludedAmount transferFeeExcludedAmount MintInfo.transferFee
  rw [this]
  exact ⟨rfl, rfl, rfl⟩

/-- **C83** (postponed for ever). Announcing a change anew in every epoch keeps the fee as it is, however long this goes
on, whatever is announced and whatever was pending. -/
theorem C83_postponed {e : EWorld} (R : EReachable e) {a : Addr} {m : MintInfo} {c : FeeConfig}
    (hm : e.w.tk.mints a = some m) (hc : e.configs.get? a = some c) (f : TransferFee)
    (fs : List TransferFee) (hr : ∀ g ∈ f :: fs, g.inRange = true) :
    ∃ m', (erun e ((f :: fs).flatMap fun g => [.announce a g, .nextEpoch])).w.tk.mints a = some m' ∧
      m'.fee = m.fee := by
  have I := R.inv
  have key : ∀ (fs : List TransferFee) (e : EWorld) (c : FeeConfig), EInv e → (e.w.tk.mints a).isSome →
      (∀ g ∈ fs, g.inRange = true) → e.configs.get? a = some c → c.newer.epoch = e.epoch + 1 →
      ∃ c', (erun e (fs.flatMap fun g => [.announce a g, .nextEpoch])).configs.get? a = some c' ∧
        c'.newer.epoch = (erun e (fs.flatMap fun g => [.announce a g, .nextEpoch])).epoch + 1 ∧
        c'.older = c.older := by
    intro fs
    induction fs with
    | nil => intro e c _ _ _ hc hn; exact ⟨c, hc, hn, rfl⟩
    | cons g fs ih =>
      intro e c I hi hr hc hn
      have h1 : eapply e (.announce a g) = { e with configs := e.configs.set a (c.announce e.epoch g) } := by
        simp [eapply, estep, hc, load, require, hr g (by simp), bind, Except.bind, pure, Except.pure]
      have I1 := (I.apply (.announce a g)).apply .nextEpoch
      have hi1 := (eapply_mint (I.apply (.announce a g)) .nextEpoch (eapply_mint I (.announce a g) hi).1).1
      have hep : (eapply (eapply e (.announce a g)) .nextEpoch).epoch = e.epoch + 1 := by rw [h1]; rfl
      have hcf : (eapply (eapply e (.announce a g)) .nextEpoch).configs.get? a = some (c.announce e.epoch g) := by
        rw [h1]; show AMap.get? (AMap.set _ _ _) a = _; rw [AMap.get?_set, if_pos rfl]
      obtain ⟨c', k1, k2, k3⟩ := ih _ (c.announce e.epoch g) I1 hi1 (fun x hx => hr x (by simp [hx])) hcf
        (by rw [hep]; rfl)
      refine ⟨c', k1, k2, k3.trans ?_⟩
      unfold FeeConfig.announce
      simp only
      rw [if_neg (by omega)]
  have hi : (e.w.tk.mints a).isSome := by rw [hm]; rfl
  obtain ⟨h1, _, _⟩ := erun_mint I ((f :: fs).flatMap fun g => [.announce a g, .nextEpoch]) hi
  obtain ⟨m', h4⟩ := Option.isSome_iff_exists.1 h1
  refine ⟨m', h4, ?_⟩
  rw [(I.run _).fees a m' h4, I.fees a m hm]
  have h1 : eapply e (.announce a f) = { e with configs := e.configs.set a (c.announce e.epoch f) } := by
    simp [eapply, estep, hc, load, require, hr f (by simp), bind, Except.bind, pure, Except.pure]
  have I1 := (I.apply (.announce a f)).apply .nextEpoch
  have hi1 := (eapply_mint (I.apply (.announce a f)) .nextEpoch (eapply_mint I (.announce a f) hi).1).1
  have hep : (eapply (eapply e (.announce a f)) .nextEpoch).epoch = e.epoch + 1 := by rw [h1]; rfl
  have hcf : (eapply (eapply e (.announce a f)) .nextEpoch).configs.get? a = some (c.announce e.epoch f) := by
    rw [h1]; show AMap.get? (AMap.set _ _ _) a = _; rw [AMap.get?_set, if_pos rfl]
  obtain ⟨c', k1, k2, k3⟩ := key fs _ (c.announce e.epoch f) I1 hi1 (fun x hx => hr x (by simp [hx])) hcf
    (by rw [hep]; rfl)
  unfold EWorld.feeIn
  show (AMap.get? (erun (eapply (eapply e (.announce a f)) .nextEpoch)
      (fs.flatMap fun g => [.announce a g, .nextEpoch])).configs a).map
        (·.during (erun (eapply (eapply e (.announce a f)) .nextEpoch)
          (fs.flatMap fun g => [.announce a g, .nextEpoch])).epoch) = _
  rw [k1, hc]
  simp only [Option.map_some]
  congr 1
  unfold FeeConfig.during
  rw [if_neg (by omega), k3]
  unfold FeeConfig.announce
  simp only
  by_cases h : c.newer.epoch ≤ e.epoch
  · rw [if_pos h, if_pos h]
  · rw [if_neg h, if_neg h]

namespace Ex

/-- The quote mint with another fee and supply. -/
def quoteMintWith (fee : Option TransferFee) (supply : Nat) : MintInfo :=
  { program := .splToken2022, isNative := false, exts := [.transferFeeConfig], fee, hook := none, supply }

/-- The quote mint: 30 basis points before epoch 450, 100 since. -/
def epochGenesis : EWorld :=
  { w := genesis, epoch := 500,
    configs := [(qm, { older := { epoch := 400, fee := { basisPoints := 30, maximumFee := 20 } },
                       newer := { epoch := 450, fee := { basisPoints := 100, maximumFee := 50 } } })] }

theorem epochGenesis_ok : EGenesis epochGenesis := by
  refine ⟨genesis_ok, ?_, ?_⟩
  · intro a m h
    simp only [epochGenesis, genesis, genesisMints] at h
    split at h
    · rename_i ha; subst ha; cases h; decide +kernel
    · split at h
      · rename_i ha; subst ha; cases h; decide +kernel
      · cases h
  · intro a c h
    simp only [epochGenesis, AMap.get?] at h
    split at h
    · cases h; decide +kernel
    · cases h

/-- Fee of the quote mint after a history. -/
def quoteFee (os : List EOp) : Option (Nat × Nat) :=
  (((erun epochGenesis os).w.tk.mints qm).bind MintInfo.fee).map fun f => (f.basisPoints, f.maximumFee)

def raiseTo (n : Nat) : EOp := .announce qm { basisPoints := n, maximumFee := 60 }

/-- No change is pending at first: the hypotheses of `C83_in_force` are met. -/
example : EReachable epochGenesis ∧ ∃ m c, epochGenesis.w.tk.mints qm = some m ∧
    epochGenesis.configs.get? qm = some c ∧ c.newer.epoch ≤ epochGenesis.epoch ∧ m.fee = some c.newer.fee ∧
    isSupportedMint m = true :=
  ⟨⟨_, [], epochGenesis_ok, rfl⟩, _, _, rfl, rfl, by decide, rfl, rfl⟩

/-- A change takes effect after two epochs. One announced while another is pending replaces it, and takes two epochs
itself. A fee out of range is not announced, and a mint cannot be given a fee in another way. -/
example : quoteFee [raiseTo 300] = some (100, 50) ∧ quoteFee [raiseTo 300, .nextEpoch] = some (100, 50) ∧
    quoteFee [raiseTo 300, .nextEpoch, .nextEpoch] = some (300, 60) ∧
    quoteFee [raiseTo 300, .nextEpoch, raiseTo 200, .nextEpoch] = some (100, 50) ∧
    quoteFee [raiseTo 300, .nextEpoch, raiseTo 200, .nextEpoch, .nextEpoch] = some (200, 60) ∧
    quoteFee [raiseTo 300, .nextEpoch, .nextEpoch, raiseTo 200, .nextEpoch] = some (300, 60) ∧
    quoteFee [raiseTo 10001, .nextEpoch, .nextEpoch] = some (100, 50) ∧
    Spec.notices qm epochGenesis [raiseTo 300, .nextEpoch, raiseTo 200, raiseTo 10001] =
      [(500, { basisPoints := 300, maximumFee := 60 }), (501, { basisPoints := 200, maximumFee := 60 })] ∧
    (estep epochGenesis (.op (.setMint qm (quoteMintWith (some ⟨0, 0⟩) 200000)))).toOption.isNone = true ∧
    (estep epochGenesis (.op (.setMint qm (quoteMintWith (some ⟨100, 50⟩) 7)))).toOption.isSome = true := by
  decide +kernel

/-- `C83_notice` cannot promise more: the fee may change with the next epoch, if it was announced in the last; and
the last announcement decides whether it does. -/
example : quoteFee [raiseTo 300, .nextEpoch, .nextEpoch] ≠ quoteFee [raiseTo 300, .nextEpoch] ∧
    quoteFee [raiseTo 300, .nextEpoch, raiseTo 7, .nextEpoch] = quoteFee [raiseTo 300, .nextEpoch] := by
  decide +kernel

/-- A mint created with a fee. -/
example : (estep epochGenesis (.newMint (.key 77) (quoteMintWith none 0) ⟨5, 9⟩)).toOption.isSome = true := by
  decide +kernel

/-- A sale in these epochs: Alice deposits the same net amount before and after a raise, and pays more fee. -/
def spent (os : List EOp) : Option Nat := ((erun epochGenesis os).w.tk.toks aliceQuote).map (·.amount)

def epochOpened : List EOp := (prorataOps.take 3).map .op

example : spent epochOpened = some 100000 ∧
    spent (epochOpened ++ [.op (deposit alice aliceQuote 100)]) = some 99895 ∧
    spent (epochOpened ++ [raiseTo 300, .op (deposit alice aliceQuote 100)]) = some 99895 ∧
    spent (epochOpened ++ [raiseTo 300, .nextEpoch, .nextEpoch, .op (deposit alice aliceQuote 100)]) = some 99893 := by
  decide +kernel

end Ex

end Verif
