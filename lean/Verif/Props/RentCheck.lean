import Verif.SpecRent
import Verif.Props.Transactions
/-!
# The runtime's check of rent (C90)
-/

namespace Verif
open Spec

theorem allows_iff {r : RentEnv} {l n l' n' : Nat} :
    (rentState r l n).allows (rentState r l' n') = true ↔ RentFine r l n l' n' := by
  unfold rentState RentFine
  by_cases h1 : l' = 0
  · simp only [if_pos h1, h1, true_or, iff_true]
    split
    · rfl
    · split <;> rfl
  · by_cases h2 : r.minimum n' ≤ l'
    · simp only [if_neg h1, if_pos h2, h2, true_or, or_true, iff_true]
      split
      · rfl
      · split <;> rfl
    · simp only [if_neg h1, if_neg h2, h1, h2, false_or]
      by_cases h3 : l = 0
      · simp only [if_pos h3, RentState.allows]
        constructor
        · intro h; cases h
        · rintro ⟨h, _⟩; omega
      · by_cases h4 : r.minimum n ≤ l
        · simp only [if_neg h3, if_pos h4, RentState.allows]
          constructor
          · intro h; cases h
          · rintro ⟨_, h, _⟩; omega
        · rw [if_neg h3, if_neg h4]
          show (decide (n' = n) && decide (l' ≤ l)) = true ↔ _
          rw [Bool.and_eq_true, decide_eq_true_eq, decide_eq_true_eq]
          constructor
          · intro h; exact ⟨by omega, by omega, h.1, h.2⟩
          · rintro ⟨_, _, h, h'⟩; exact ⟨h, h'⟩

theorem Spec.RentFine.same (r : RentEnv) (l n : Nat) : RentFine r l n l n := by
  unfold RentFine
  by_cases h1 : l = 0
  · exact .inl h1
  · by_cases h2 : r.minimum n ≤ l
    · exact .inr (.inl h2)
    · exact .inr (.inr ⟨by omega, by omega, rfl, Nat.le_refl _⟩)

theorem creations_names (r r' : RentEnv) (w w' : World) (i : Ix) :
    (creations r w i).map Prod.fst = (creations r' w' i).map Prod.fst := by
  cases i <;> rfl

theorem touched_congr (r r' : RentEnv) (w w' : World) (o : COp) : o.touched r w = o.touched r' w' := by
  cases o with
  | setLam a n => rfl
  | op o =>
    cases o with
    | ix tx i => simp only [COp.touched, creations_names r r' w w' i]
    | _ => rfl

theorem lookup_none {l : List (Addr × Nat)} {a : Addr} (h : a ∉ l.map Prod.fst) : l.lookup a = none := by
  induction l with
  | nil => rfl
  | cons x l ih =>
    simp only [List.map_cons, List.mem_cons, not_or] at h
    have : (a == x.1) = false := by simpa using h.1
    rw [List.lookup, this]
    exact ih h.2

/-- An operation leaves alone what it does not touch. -/
theorem cstep_untouched {c c' : Chain} (R : CReachable c) {o : COp} {rc : Receipt} (h : cstep c o = .ok (c', rc))
    {a : Addr} (ha : a ∉ o.touched c.rent c.w) :
    c'.lam a = c.lam a ∧ accountSize c'.rent c'.w a = accountSize c.rent c.w a := by
  have W := (C62_refines R).winv
  cases o with
  | setLam b m =>
    obtain ⟨_, rfl, _⟩ := cstep_setLam.1 h
    simp only [COp.touched, List.mem_singleton] at ha
    exact ⟨upd_other _ _ ha, rfl⟩
  | op o =>
    obtain ⟨w', l, hs, hl, rfl⟩ := cstep_op.1 h
    have hsz := size_after W c.rent hs a
    cases o with
    | ix tx i =>
      simp only [COp.touched, List.mem_append, not_or] at ha
      obtain ⟨⟨h1, h2⟩, h3⟩ := ha
      replace hl : lamports c.rent c.w i c.lam = .ok l := hl
      replace hsz : accountSize c.rent w' a = sizeAfter c.rent c.w i a := hsz
      simp only [lamports, bind_eq_ok, chargeRent, payOut] at hl
      unfold sizeAfter at hsz
      rw [lookup_none h2] at hsz
      rcases ix_kind c.rent c.w i with ⟨p, x, tl, k1, k2, k3⟩ | ⟨a0, d, k1, k2, k3⟩ | ⟨k1, k2, k3⟩
      · have sh := creations_shape c.rent c.w i
        rw [k1, k3] at hl
        rw [k3] at hsz
        obtain ⟨l1, h4, h5⟩ := hl
        cases h5
        rw [payRent_iff sh.1 (sh.2 p (signer_isKey (payer_signed hs k1)))] at h4
        refine ⟨?_, hsz⟩
        show l a = _
        rw [h4.2]
        have hne : a ≠ p := by rintro rfl; rw [k1] at h1; simp at h1
        simp only [if_neg hne, lookup_none h2]
      · rw [k2, k1] at hl
        rw [k1] at hsz h3
        simp only [List.mem_cons, List.not_mem_nil, or_false, not_or] at h3
        obtain ⟨l1, h4, h5⟩ := hl
        cases h4
        obtain ⟨_, _, he⟩ := moveLam_iff.1 h5
        have hn : (some (a0, d)).map Prod.fst ≠ some a := by
          simp only [Option.map_some, ne_eq, Option.some.injEq]
          exact fun h => h3.1 h.symm
        rw [if_neg hn] at hsz
        refine ⟨?_, hsz⟩
        show l a = _
        rw [he, upd_other _ _ h3.2, upd_other _ _ h3.1]
      · rw [k2, k1] at hl
        rw [k1] at hsz
        obtain ⟨l1, h4, h5⟩ := hl
        cases h4; cases h5
        exact ⟨rfl, hsz⟩
    | _ => cases hl; exact ⟨rfl, hsz⟩

theorem cstep_rent {c c' : Chain} {o : COp} {rc : Receipt} (h : cstep c o = .ok (c', rc)) : c'.rent = c.rent :=
  (cstep_world h).1

theorem Spec.Executes.rent {S : List Addr} {c c' : Chain} {ts : List TIx} (h : Executes S c ts c') :
    c'.rent = c.rent := by
  induction h with
  | done c => rfl
  | own h1 _ ih => rw [ih, cstep_rent h1]
  | other _ h1 _ ih => rw [ih, cstep_rent h1]

theorem dataSize_congr {r : RentEnv} {w w' : World} {a : Addr} (h : accountSize r w' a = accountSize r w a)
    (sizes : Addr → Nat) : dataSize r w' sizes a = dataSize r w sizes a := by
  unfold dataSize; rw [h]

theorem touched_cons (r r' : RentEnv) (w w' : World) (S : List Addr) (i : TIx) (ts : List TIx) (a : Addr)
    (h : a ∉ Transaction.touched r w ⟨S, i :: ts⟩) :
    (∀ o, i.op S = some o → a ∉ o.touched r w) ∧ a ∉ Transaction.touched r' w' ⟨S, ts⟩ := by
  simp only [Transaction.touched, List.flatMap_cons, List.mem_append, not_or] at h
  refine ⟨fun o ho => by rw [ho] at h; exact h.1, ?_⟩
  intro hm
  apply h.2
  simp only [Transaction.touched, List.mem_flatMap] at hm ⊢
  obtain ⟨x, hx, hm⟩ := hm
  refine ⟨x, hx, ?_⟩
  cases ho : x.op S with
  | none => rw [ho] at hm; simp at hm
  | some o =>
    rw [ho] at hm
    simp only [Option.map_some, Option.getD_some] at hm ⊢
    rw [touched_congr r r' w w' o]; exact hm

theorem Spec.Executes.untouched {S : List Addr} {c c' : Chain} {ts : List TIx} (h : Executes S c ts c')
    (R : CReachable c) {a : Addr} (ha : a ∉ Transaction.touched c.rent c.w ⟨S, ts⟩) :
    c'.lam a = c.lam a ∧ accountSize c'.rent c'.w a = accountSize c.rent c.w a := by
  induction h with
  | done c => exact ⟨rfl, rfl⟩
  | @own c c1 c2 s acc i rc ts h1 _ ih =>
    obtain ⟨g1, g2⟩ := touched_cons c.rent c1.rent c.w c1.w S _ ts a ha
    obtain ⟨e1, e2⟩ := cstep_untouched R h1 (g1 _ rfl)
    obtain ⟨e3, e4⟩ := ih (R.step h1) g2
    exact ⟨e3.trans e1, e4.trans e2⟩
  | @other c c1 c2 o rc ts hk h1 _ ih =>
    obtain ⟨g1, g2⟩ := touched_cons c.rent c1.rent c.w c1.w S _ ts a ha
    obtain ⟨e1, e2⟩ := cstep_untouched R h1 (g1 _ (TIx.op_other_some hk))
    obtain ⟨e3, e4⟩ := ih (R.step h1) g2
    exact ⟨e3.trans e1, e4.trans e2⟩

theorem rexec_iff {c c' : Chain} {t : Transaction} {sizes : Addr → Nat} :
    (∃ rcs, rexec c t sizes = .ok (c', rcs)) ↔ Executes t.signers c t.items c' ∧
      ∀ a ∈ t.touched c.rent c.w, RentFine c.rent (c.lam a) (dataSize c.rent c.w sizes a) (c'.lam a)
        (dataSize c'.rent c'.w sizes a) := by
  simp only [rexec, bind_eq_ok, Prod.exists, require_eq_ok, pure_eq_ok, List.all_eq_true]
  constructor
  · rintro ⟨rcs, c1, rcs', h1, u, h2, h3⟩
    cases h3
    have E := exec_iff.1 ⟨_, h1⟩
    refine ⟨E, fun a ha => ?_⟩
    have := h2 a ha
    rw [E.rent] at this ⊢
    exact allows_iff.1 this
  · rintro ⟨E, h2⟩
    obtain ⟨rcs, h1⟩ := exec_iff.2 E
    refine ⟨rcs, c', rcs, h1, (), fun a ha => ?_, rfl⟩
    have := h2 a ha
    rw [E.rent] at this ⊢
    exact allows_iff.2 this

/-! ## C90 -/

/-- The check as the program of the runtime performs it. -/
theorem rent_check {c c' : Chain} (R : CReachable c) {t : Transaction} {sizes : Addr → Nat} :
    (∃ rcs, rexec c t sizes = .ok (c', rcs)) ↔ Executes t.signers c t.items c' ∧
      ∀ a, RentFine c.rent (c.lam a) (dataSize c.rent c.w sizes a) (c'.lam a) (dataSize c'.rent c'.w sizes a) := by
  rw [rexec_iff]
  refine ⟨fun ⟨E, h⟩ => ⟨E, fun a => ?_⟩, fun ⟨E, h⟩ => ⟨E, fun a _ => h a⟩⟩
  by_cases ha : a ∈ t.touched c.rent c.w
  · exact h a ha
  · obtain ⟨e1, e2⟩ := E.untouched R ha
    rw [e1]
    rw [E.rent] at e2 ⊢
    rw [dataSize_congr e2]
    exact .same _ _ _

theorem rapply_tapply (c : Chain) (o : ROp) : ∃ os, rapply c o = trun c os := by
  cases o with
  | tick n => exact ⟨[.tick n], rfl⟩
  | tx t sizes =>
    simp only [rapply]
    split
    · next c' rcs h =>
      obtain ⟨rcs', h1⟩ := exec_iff.2 (rexec_iff.1 ⟨rcs, h⟩).1
      refine ⟨[.tx t], ?_⟩
      show c' = tapply c (.tx t)
      simp only [tapply, h1]
    · exact ⟨[], rfl⟩

theorem trun_append (c : Chain) (os os' : List TOp) : trun c (os ++ os') = trun (trun c os) os' := by
  induction os generalizing c with
  | nil => rfl
  | cons x os ih => exact ih _

theorem rrun_snoc (c : Chain) (os : List ROp) (o : ROp) : rrun c (os ++ [o]) = rapply (rrun c os) o := by
  induction os generalizing c with
  | nil => rfl
  | cons x os ih => exact ih _

/-- **C90.** The check only takes transactions away: what is proved of all states between transactions holds with
it. -/
theorem C90_refines {c : Chain} (R : RReachable c) : TReachable c := by
  obtain ⟨c0, os, h0, rfl⟩ := R
  induction os using List.reverseRecOn with
  | nil => exact ⟨c0, [], h0, rfl⟩
  | append_singleton os o ih =>
    obtain ⟨c1, ts, h1, h2⟩ := ih
    rw [rrun_snoc]
    obtain ⟨us, h3⟩ := rapply_tapply (rrun c0 os) o
    exact ⟨c1, ts ++ us, h1, by rw [trun_append, ← h2, h3]⟩

theorem Addr.own_not_key {a : Addr} (h : a.isOwn = true) : a.isKey = false := by
  cases a <;> first | rfl | cases h

theorem dataSize_own {r : RentEnv} {w : World} {sizes : Addr → Nat} {a : Addr} (h : a.isOwn = true) :
    dataSize r w sizes a = (accountSize r w a).getD 0 := by
  rw [dataSize, if_pos h]

theorem dataSize_key {r : RentEnv} {w : World} {sizes : Addr → Nat} {a : Addr} (h : a.isKey = true) :
    dataSize r w sizes a = sizes a := by
  cases a <;> first | rfl | cases h

theorem size_foreign {r : RentEnv} {w : World} {a : Addr} (h : a.isOwn = false) : accountSize r w a = none := by
  cases a <;> first | rfl | (simp [Addr.isOwn] at h)

/-- What one operation does to an address of the program. -/
theorem cstep_own {c c' : Chain} (R : CReachable c) (M : Spec.Monotone c.rent) {o : COp} {rc : Receipt}
    (h : cstep c o = .ok (c', rc)) {a : Addr} (ho : a.isOwn = true) (hs : ∀ n, o ≠ .setLam a n)
    (sizes : Addr → Nat) :
    (c'.lam a = c.lam a ∧ dataSize c'.rent c'.w sizes a = dataSize c.rent c.w sizes a) ∨ c'.lam a = 0 ∨
      c.rent.minimum (dataSize c'.rent c'.w sizes a) ≤ c'.lam a := by
  have R' := R.step h
  have hr := cstep_rent h
  rw [dataSize_own ho, dataSize_own ho]
  cases h2 : accountSize c'.rent c'.w a with
  | some n =>
    have := C62_rent_exempt R' h2
    rw [hr] at this
    exact .inr (.inr this)
  | none =>
    by_cases hix : ∃ tx i, o = .op (.ix tx i)
    · obtain ⟨tx, i, rfl⟩ := hix
      have L := C62_moves R h
      cases h1 : accountSize c.rent c.w a with
      | some n => exact .inr (.inl (L.gone a n ⟨h1, h2⟩))
      | none =>
        rcases Nat.lt_trichotomy (c'.lam a) (c.lam a) with hl | hl | hl
        · rcases L.loss a hl with ⟨n, hg⟩ | ⟨_, hk⟩
          · rw [hg.1] at h1; cases h1
          · have := signer_isKey hk
            rw [Addr.own_not_key ho] at this; cases this
        · exact .inl ⟨hl, rfl⟩
        · rcases L.gain a hl with ⟨n, hb⟩ | ⟨b, n, hg, _, he⟩
          · rw [hb.2] at h2; cases h2
          · have e1 := C62_rent_exempt R hg.1
            have e2 := M 0 n (Nat.zero_le _)
            refine .inr (.inr ?_)
            show c.rent.minimum 0 ≤ _
            omega
    · have hna : a ∉ o.touched c.rent c.w := by
        cases o with
        | setLam b m =>
          simp only [COp.touched, List.mem_singleton]
          rintro rfl; exact hs m rfl
        | op o =>
          cases o with
          | ix tx i => exact absurd ⟨tx, i, rfl⟩ hix
          | _ => simp [COp.touched]
      obtain ⟨e1, e2⟩ := cstep_untouched R h hna
      rw [h2] at e2
      rw [← e2]
      exact .inl ⟨e1, rfl⟩

theorem rent_own {c c' : Chain} (R : CReachable c) (M : Spec.Monotone c.rent) {S : List Addr} {ts : List TIx}
    (E : Executes S c ts c') {a : Addr} (ho : a.isOwn = true) (hs : ∀ n, TIx.other (.setLam a n) ∉ ts)
    (sizes : Addr → Nat) :
    RentFine c.rent (c.lam a) (dataSize c.rent c.w sizes a) (c'.lam a) (dataSize c'.rent c'.w sizes a) := by
  have key : (c'.lam a = c.lam a ∧ dataSize c'.rent c'.w sizes a = dataSize c.rent c.w sizes a) ∨ c'.lam a = 0 ∨
      c.rent.minimum (dataSize c'.rent c'.w sizes a) ≤ c'.lam a := by
    induction E with
    | done c => exact .inl ⟨rfl, rfl⟩
    | @own c c1 c2 s acc i rc ts h1 _ ih =>
      have hr := cstep_rent h1
      have h2 := ih (R.step h1) (by rw [hr]; exact M) (fun n hn => hs n (List.mem_cons_of_mem _ hn))
      have h3 := cstep_own R M h1 ho (by intro n hn; cases hn) sizes
      rw [hr] at h2 h3
      rcases h2 with ⟨e1, e2⟩ | h2
      · rw [e1, e2]; exact h3
      · exact .inr h2
    | @other c c1 c2 o rc ts hk h1 _ ih =>
      have hr := cstep_rent h1
      have h2 := ih (R.step h1) (by rw [hr]; exact M) (fun n hn => hs n (List.mem_cons_of_mem _ hn))
      have h3 := cstep_own R M h1 ho (by rintro n rfl; exact hs n List.mem_cons_self) sizes
      rw [hr] at h2 h3
      rcases h2 with ⟨e1, e2⟩ | h2
      · rw [e1, e2]; exact h3
      · exact .inr h2
  rcases key with ⟨e1, e2⟩ | h | h
  · rw [e1, e2]; exact .same _ _ _
  · exact .inl h
  · exact .inr (.inl h)

theorem executes_one {S : List Addr} {c c' : Chain} {s : List Addr} {acc : Bool} {i : Ix} :
    Executes S c [.own s acc i] c' ↔ ∃ rc, cstep c (.op (.ix ⟨S ++ s, acc⟩ i)) = .ok (c', rc) := by
  constructor
  · intro h
    cases h with
    | own h1 h2 => cases h2; exact ⟨_, h1⟩
  · rintro ⟨rc, h⟩
    exact .own h (.done _)

theorem isOwn_iff {a : Addr} : a.isOwn = false ↔ Foreign a := by
  constructor
  · intro h
    cases a <;> first | cases h; done | exact .inl ⟨_, rfl⟩ | exact .inr ⟨_, _, _, rfl⟩
  · rintro (⟨n, rfl⟩ | ⟨p, o, m, rfl⟩) <;> rfl

theorem stores_iff {r : RentEnv} {w : World} {sizes : Addr → Nat} {a : Addr} {n : Nat} :
    Stores r w sizes a n ↔ n = dataSize r w sizes a := by
  unfold Stores
  rw [← isOwn_iff, dataSize]
  cases a.isOwn
  · simp
  · cases accountSize r w a <;> simp [eq_comm]

/-- **C90.** With the check, a transaction goes through exactly when its instructions do and every account on the
chain ends empty, rent-exempt, or no worse than it was. -/
theorem C90_check {c c' : Chain} (R : CReachable c) {t : Transaction} {sizes : Addr → Nat} :
    (∃ rcs, rexec c t sizes = .ok (c', rcs)) ↔ Executes t.signers c t.items c' ∧
      ∀ a n n', Stores c.rent c.w sizes a n → Stores c'.rent c'.w sizes a n' →
        RentFine c.rent (c.lam a) n (c'.lam a) n' := by
  rw [rent_check R]
  refine and_congr_right fun _ => ⟨fun h a n n' h1 h2 => ?_, fun h a => h a _ _ (stores_iff.2 rfl) (stores_iff.2 rfl)⟩
  rw [stores_iff.1 h1, stores_iff.1 h2]
  exact h a

/-- **C90.** The accounts of the program always pass: whatever instructions a transaction contains, an address
derived by the program ends empty or rent-exempt or as it was, unless the transaction itself sends lamports to it from
outside. -/
theorem C90_own_accounts {c c' : Chain} (R : CReachable c) (M : Spec.Monotone c.rent) {S : List Addr} {ts : List TIx}
    (E : Executes S c ts c') {a : Addr} (ho : ¬ Foreign a) (hs : ∀ n, TIx.other (.setLam a n) ∉ ts)
    {sizes : Addr → Nat} {n n' : Nat} (h1 : Stores c.rent c.w sizes a n) (h2 : Stores c'.rent c'.w sizes a n') :
    RentFine c.rent (c.lam a) n (c'.lam a) n' := by
  rw [stores_iff.1 h1, stores_iff.1 h2]
  rw [← isOwn_iff, Bool.not_eq_false] at ho
  exact rent_own R M E ho hs sizes

/-- **C90.** Exactly when an instruction sent alone goes through: the program accepts it, its payer has the rent due
and is not left with too little, and the receiver of a closed account is not left with too little. -/
theorem C90_succeeds_iff {c : Chain} (R : CReachable c) (M : Spec.Monotone c.rent) (S s : List Addr) (acc : Bool)
    (i : Ix) (sizes : Addr → Nat) :
    (∃ c' rcs, rexec c ⟨S, [.own s acc i]⟩ sizes = .ok (c', rcs)) ↔
      (∃ w' rc, step c.w (.ix ⟨S ++ s, acc⟩ i) = .ok (w', rc)) ∧
      (∀ p, rentPayer i = some p →
        rentDue c.rent c.lam (creations c.rent c.w i) ≤ c.lam p ∧
        (c.lam p = rentDue c.rent c.lam (creations c.rent c.w i) ∨
          c.rent.minimum (sizes p) + rentDue c.rent c.lam (creations c.rent c.w i) ≤ c.lam p ∨
          c.lam p < c.rent.minimum (sizes p))) ∧
      (∀ a d, closing i = some (a, d) → Foreign d →
        c.lam a = 0 ∨ c.rent.minimum (sizes d) ≤ c.lam d + c.lam a) := by
  have W := (C62_refines R).winv
  constructor
  · rintro ⟨c', rcs, h⟩
    obtain ⟨E, F⟩ := (rent_check R).1 ⟨rcs, h⟩
    obtain ⟨rc, h1⟩ := executes_one.1 E
    obtain ⟨hok, hdue⟩ := (C62_succeeds_iff R _ i).1 ⟨_, _, h1⟩
    obtain ⟨w', l, hs, hl, rfl⟩ := cstep_op.1 h1
    replace hl : lamports c.rent c.w i c.lam = .ok l := hl
    simp only [lamports, bind_eq_ok, chargeRent, payOut] at hl
    refine ⟨hok, fun p hp => ⟨hdue p hp, ?_⟩, fun a d hcl hd => ?_⟩
    · have hd := hdue p hp
      have hk := signer_isKey (payer_signed hs hp)
      have hc : closing i = none := by
        rcases ix_kind c.rent c.w i with ⟨_, _, _, _, _, k⟩ | ⟨_, _, _, k, _⟩ | ⟨k, _, _⟩
        · exact k
        · rw [hp] at k; cases k
        · exact k
      rw [hp, hc] at hl
      obtain ⟨l1, h4, h5⟩ := hl
      cases h5
      have sh := creations_shape c.rent c.w i
      obtain ⟨_, hl⟩ := (payRent_iff sh.1 (sh.2 p hk)).1 h4
      have f := F p
      rw [dataSize_key hk, dataSize_key hk] at f
      replace f : RentFine c.rent (c.lam p) (sizes p) (l p) (sizes p) := f
      rw [hl] at f
      simp only [if_true] at f
      unfold RentFine at f
      omega
    · have hp : rentPayer i = none := by
        rcases ix_kind c.rent c.w i with ⟨_, _, _, _, _, k⟩ | ⟨_, _, _, k, _⟩ | ⟨_, k, _⟩
        · rw [hcl] at k; cases k
        · exact k
        · exact k
      rw [hp, hcl] at hl
      obtain ⟨l1, h4, h5⟩ := hl
      cases h4
      obtain ⟨hne, _, hl⟩ := moveLam_iff.1 h5
      have f := F d
      simp only [dataSize, isOwn_iff.2 hd, Bool.false_eq_true, if_false] at f
      rw [hl, upd_self] at f
      unfold RentFine at f
      omega
  · rintro ⟨hok, hpay, hrec⟩
    obtain ⟨c', rc, h1⟩ := (C62_succeeds_iff R _ i).2 ⟨hok, fun p hp => (hpay p hp).1⟩
    have E := executes_one.2 ⟨rc, h1⟩
    have key : ∀ a, RentFine c.rent (c.lam a) (dataSize c.rent c.w sizes a) (c'.lam a)
        (dataSize c'.rent c'.w sizes a) := by
      intro a
      by_cases ho : a.isOwn = true
      · exact rent_own R M E ho (by intro n hn; cases hn with | tail _ h => cases h) sizes
      · rw [Bool.not_eq_true] at ho
        simp only [dataSize, ho, Bool.false_eq_true, if_false]
        have L := C62_moves R h1
        rcases Nat.lt_trichotomy (c'.lam a) (c.lam a) with hl | hl | hl
        · rcases L.loss a hl with ⟨n, hg⟩ | ⟨hp, hk⟩
          · have := hg.1
            rw [size_foreign ho] at this; cases this
          · obtain ⟨w', l, hs, hl', rfl⟩ := cstep_op.1 h1
            replace hl' : lamports c.rent c.w i c.lam = .ok l := hl'
            simp only [lamports, bind_eq_ok, chargeRent, payOut] at hl'
            have hc : closing i = none := by
              rcases ix_kind c.rent c.w i with ⟨_, _, _, _, _, k⟩ | ⟨_, _, _, k, _⟩ | ⟨k, _, _⟩
              · exact k
              · rw [hp] at k; cases k
              · exact k
            rw [hp, hc] at hl'
            obtain ⟨l1, h4, h5⟩ := hl'
            cases h5
            have sh := creations_shape c.rent c.w i
            obtain ⟨_, he⟩ := (payRent_iff sh.1 (sh.2 a (signer_isKey hk))).1 h4
            have hla : l a = c.lam a - rentDue c.rent c.lam (creations c.rent c.w i) := by
              rw [he]; simp only [if_true]
            have := hpay a hp
            show RentFine c.rent (c.lam a) (sizes a) (l a) (sizes a)
            rw [hla]
            unfold RentFine
            omega
        · rw [hl]; exact .same _ _ _
        · rcases L.gain a hl with ⟨n, hb⟩ | ⟨b, n, hg, hcl, he⟩
          · have := hb.2
            rw [size_foreign ho] at this; cases this
          · have := hrec b a hcl (isOwn_iff.1 ho)
            unfold RentFine
            omega
    obtain ⟨rcs, h2⟩ := (rent_check R (t := ⟨S, [.own s acc i]⟩)).2 ⟨E, key⟩
    exact ⟨c', rcs, h2⟩

/-- **C90.** So an instruction that creates no account, in particular every way to get tokens out, is not affected by
the check, if the receiver of a closed account is no larger than it: a wallet has no data at all. -/
theorem C90_payouts {c : Chain} (R : CReachable c) (M : Spec.Monotone c.rent) {S s : List Addr} {acc : Bool}
    {i : Ix} (sizes : Addr → Nat) (hi : rentPayer i = none) {w' : World} {rc : Receipt}
    (h : step c.w (.ix ⟨S ++ s, acc⟩ i) = .ok (w', rc))
    (hd : ∀ a d n, closing i = some (a, d) → accountSize c.rent c.w a = some n → sizes d ≤ n) :
    ∃ c' rcs, rexec c ⟨S, [.own s acc i]⟩ sizes = .ok (c', rcs) := by
  refine (C90_succeeds_iff R M S s acc i sizes).2 ⟨⟨w', rc, h⟩, fun p hp => ?_, fun a d hcl _ => ?_⟩
  · rw [hi] at hp; cases hp
  · obtain ⟨_, _, n, hn⟩ := closing_present (C62_refines R).winv c.rent h hcl
    have h1 := C62_rent_exempt R hn
    have h2 := M _ _ (hd a d n hcl hn)
    omega

theorem RReachable.step {c c' : Chain} (R : RReachable c) {t : Transaction} {sizes : Addr → Nat}
    {rcs : List Receipt} (h : rexec c t sizes = .ok (c', rcs)) : RReachable c' := by
  obtain ⟨c0, os, h0, rfl⟩ := R
  refine ⟨c0, os ++ [.tx t sizes], h0, ?_⟩
  rw [rrun_snoc]
  simp only [rapply, h]

theorem RReachable.chain {c : Chain} (R : RReachable c) : CReachable c := (C63_same_states c).1 (C90_refines R)

/-- **C90.** Conversely, the check excludes nothing the ledger can do, given payers with enough lamports. -/
theorem C90_complete {w : World} (R : Reachable w) (r : RentEnv) (M : Spec.Monotone r) :
    ∃ c, RReachable c ∧ c.rent = r ∧ c.w = w := by
  obtain ⟨w0, ops, h0, rfl⟩ := R
  induction ops using List.reverseRecOn with
  | nil => exact ⟨⟨w0, r, fun _ => 0⟩, ⟨_, [], h0, rfl⟩, rfl, rfl⟩
  | append_singleton ops o ih =>
    obtain ⟨c, R, hr, hw⟩ := ih
    subst hr
    rw [run_snoc]
    rcases apply_cases (run w0 ops) o with h | ⟨rc, h⟩
    · rw [h]; exact ⟨c, R, rfl, hw⟩
    · generalize apply (run w0 ops) o = w' at *
      rw [← hw] at h
      by_cases hix : ∃ tx i, o = .ix tx i
      · obtain ⟨tx, i, rfl⟩ := hix
        have fin : ∀ c1 : Chain, RReachable c1 → c1.w = c.w → c1.rent = c.rent →
            (∀ p, rentPayer i = some p → rentDue c1.rent c1.lam (creations c1.rent c1.w i) ≤ c1.lam p ∧
              (c1.lam p = rentDue c1.rent c1.lam (creations c1.rent c1.w i) ∨
              c1.rent.minimum 0 + rentDue c1.rent c1.lam (creations c1.rent c1.w i) ≤ c1.lam p ∨
              c1.lam p < c1.rent.minimum 0)) → ∃ c2, RReachable c2 ∧ c2.rent = c.rent ∧ c2.w = w' := by
          intro c1 R1 e1 e2 hp
          have hst : step c1.w (.ix ⟨tx.signers ++ [], tx.accept⟩ i) = .ok (w', rc) := by
            rw [List.append_nil, e1]; exact h
          obtain ⟨c2, rcs, h2⟩ := (C90_succeeds_iff R1.chain (by rw [e2]; exact M) tx.signers [] tx.accept i
            (fun _ => 0)).2 ⟨⟨w', rc, hst⟩, hp, fun a d hcl _ => by
              obtain ⟨_, _, n, hn⟩ := closing_present (C62_refines R1.chain).winv c1.rent hst hcl
              have g1 := C62_rent_exempt R1.chain hn
              have g2 := M 0 n (Nat.zero_le _)
              rw [e2] at g1 ⊢
              omega⟩
          obtain ⟨rc', h3⟩ := executes_one.1 (rexec_iff.1 ⟨rcs, h2⟩).1
          obtain ⟨w'', l, hs, _, rfl⟩ := cstep_op.1 h3
          rw [hst] at hs; cases hs
          exact ⟨_, R1.step h2, e2, rfl⟩
        cases hp : rentPayer i with
        | none => exact fin c R rfl rfl (by rw [hp]; intro p hp; cases hp)
        | some p =>
          have hk := signer_isKey (payer_signed h hp)
          let X := c.rent.minimum 0 + rentDue c.rent c.lam (creations c.rent c.w i)
          have hs0 : cstep c (.setLam p X) = .ok ({ c with lam := upd c.lam p X }, noReceipt) :=
            cstep_setLam.2 ⟨fun hx => (by rw [size_key hk] at hx; cases hx), rfl, rfl⟩
          obtain ⟨rcs, h1⟩ := (rexec_iff (t := ⟨[], [.other (.setLam p X)]⟩) (sizes := fun _ => 0)).2
            ⟨.other (by intro _ _ _; exact ⟨by simp, by simp⟩) hs0 (.done _), by
              intro a ha
              have : a = p := by
                simpa [Transaction.touched, TIx.op, COp.touched] using ha
              subst this
              rw [dataSize_key hk]
              refine .inr (.inl ?_)
              show c.rent.minimum 0 ≤ upd c.lam a X a
              rw [upd_self]; exact Nat.le_add_right _ _⟩
          refine fin _ (R.step h1) rfl rfl (by
            rw [hp]; intro p' hp'; cases hp'
            have e : rentDue c.rent (upd c.lam p X) (creations c.rent c.w i) =
                rentDue c.rent c.lam (creations c.rent c.w i) := by
              refine rentDue_congr fun x hx => upd_other _ _ ?_
              rintro rfl
              exact (creations_shape c.rent c.w i).2 _ hk (List.mem_map_of_mem hx)
            show rentDue c.rent (upd c.lam p X) (creations c.rent c.w i) ≤ upd c.lam p X p ∧
              (upd c.lam p X p = rentDue c.rent (upd c.lam p X) (creations c.rent c.w i) ∨
              c.rent.minimum 0 + rentDue c.rent (upd c.lam p X) (creations c.rent c.w i) ≤ upd c.lam p X p ∨
              upd c.lam p X p < c.rent.minimum 0)
            rw [upd_self, e]
            exact ⟨Nat.le_add_left _ _, .inr (.inl (Nat.le_refl _))⟩)
      · have hc : cstep c (.op o) = .ok ({ c with w := w', lam := c.lam }, rc) := by
          refine cstep_op.2 ⟨w', c.lam, h, ?_, rfl⟩
          cases o with
          | ix tx i => exact absurd ⟨tx, i, rfl⟩ hix
          | _ => rfl
        by_cases ht : ∃ n, o = .tick n
        · obtain ⟨n, rfl⟩ := ht
          obtain ⟨c0, os, g0, rfl⟩ := R
          refine ⟨_, ⟨c0, os ++ [.tick n], g0, rfl⟩, ?_⟩
          rw [rrun_snoc]
          simp only [rapply, capply, hc, and_self]
        · obtain ⟨rcs, h1⟩ := (rexec_iff (t := ⟨[], [.other (.op o)]⟩) (sizes := fun _ => 0)).2
            ⟨.other (by
              intro tx i n
              refine ⟨fun hh => ?_, fun hh => ?_⟩
              · cases hh; exact hix ⟨tx, i, rfl⟩
              · cases hh; exact ht ⟨n, rfl⟩) hc (.done _), by
              intro a ha
              exfalso
              cases o with
              | ix tx i => exact hix ⟨tx, i, rfl⟩
              | _ => simp [Transaction.touched, TIx.op, COp.touched] at ha⟩
          exact ⟨_, R.step h1, rfl, rfl⟩

/-! ## Examples -/

namespace Ex

theorem rent_monotone : Spec.Monotone rent := fun _ _ h => Nat.mul_le_mul_right _ (Nat.add_le_add_left h _)

/-- The transaction of one instruction. -/
def alone : Op → Transaction
  | .ix tx i => ⟨tx.signers, [.own [] tx.accept i]⟩
  | _ => ⟨[], []⟩

/-- Wallets have no data. -/
def wallets : Addr → Nat := fun _ => 0

def okay (c : Chain) (o : Op) : Bool := (rexec c (alone o) wallets).toBool

/-- Opening an escrow with too little left over is refused, though the program would accept it; with nothing left
over, or enough, it goes through. The escrow of an emptied wallet can be closed again. -/
example :
    let c := crun chain0 (all [init 1 0 0 reg1, .tick 10])
    let due := (128 + 200) * 6960
    okay (capply c (.setLam alice (due + 1))) (open' alice) = false ∧
    works c.w (open' alice) = true ∧
    (cstep (capply c (.setLam alice (due + 1))) (.op (open' alice))).toBool = true ∧
    okay (capply c (.setLam alice due)) (open' alice) = true ∧
    okay (capply c (.setLam alice (due + 128 * 6960))) (open' alice) = true ∧
    okay (capply c (.setLam alice (due + 128 * 6960 - 1))) (open' alice) = false := by
  decide +kernel

/-- Closing pays into an emptied wallet; into a large account without lamports it is refused. -/
example :
    let c := capply chainVested (.setLam alice 0)
    okay c (closeEscrow alice) = true ∧
    (rexec c (alone (closeEscrow alice)) (fun _ => 201)).toBool = false ∧
    (rexec c (alone (closeEscrow alice)) (fun _ => 200)).toBool = true := by
  decide +kernel

/-- Sending a little to an address of the program that is not in use makes a transaction fail; so does a transfer to a
fresh wallet. An account below the minimum from before may lose lamports but not gain. -/
example :
    let send := fun (c : Chain) (a : Addr) (n : Nat) => (rexec c ⟨[], [.other (.setLam a n)]⟩ wallets).toBool
    let poor := capply chain0 (.setLam bob 5)
    send chain0 (escrowOf alice) 7 = false ∧ send chain0 (escrowOf alice) (128 * 6960) = true ∧
    send poor bob 4 = true ∧ send poor bob 6 = false ∧ send poor bob 0 = true := by
  decide +kernel

end Ex

end Verif
