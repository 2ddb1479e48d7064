import Verif.Lemmas.Order
import Verif.Lemmas.Conserve
import Verif.Lemmas.MachineAfter
import Verif.Props.Machine
import Verif.SpecSettle
/-!
# Two instructions of the settlement change places
-/

namespace Verif
open Spec

/-! ## Maps -/

/-- Change or remove the first entry of `k`. -/
def AMap.alter {K V : Type} [DecidableEq K] : AMap K V → K → (V → Option V) → AMap K V
  | [], _, _ => []
  | (k', v) :: m, k, f =>
    if k' = k then (match f v with | some v' => (k', v') :: m | none => m) else (k', v) :: AMap.alter m k f

section maps
variable {K V : Type} [DecidableEq K]

theorem AMap.alter_set {m : AMap K V} {k : K} {v v' : V} {f : V → Option V} (h : AMap.get? m k = some v)
    (hf : f v = some v') : AMap.alter m k f = AMap.set m k v' := by
  induction m with
  | nil => cases h
  | cons x m ih =>
    obtain ⟨k', u⟩ := x
    by_cases e : k' = k
    · subst e
      simp only [AMap.get?, if_true, Option.some.injEq] at h
      subst h
      simp [AMap.alter, AMap.set, hf]
    · simp only [AMap.get?, if_neg e] at h
      simp [AMap.alter, AMap.set, e, ih h]

theorem AMap.alter_erase {m : AMap K V} {k : K} {v : V} {f : V → Option V} (h : AMap.get? m k = some v)
    (hf : f v = none) : AMap.alter m k f = AMap.erase m k := by
  induction m with
  | nil => cases h
  | cons x m ih =>
    obtain ⟨k', u⟩ := x
    by_cases e : k' = k
    · subst e
      simp only [AMap.get?, if_true, Option.some.injEq] at h
      subst h
      simp [AMap.alter, AMap.erase, hf]
    · simp only [AMap.get?, if_neg e] at h
      simp [AMap.alter, AMap.erase, e, ih h]

theorem AMap.alter_some (m : AMap K V) (k : K) : AMap.alter m k some = m := by
  induction m with
  | nil => rfl
  | cons x m ih =>
    obtain ⟨k', u⟩ := x
    by_cases e : k' = k <;> simp [AMap.alter, e, ih]

theorem AMap.alter_swap (m : AMap K V) {k j : K} (f g : V → Option V) (h : k ≠ j) :
    AMap.alter (AMap.alter m k f) j g = AMap.alter (AMap.alter m j g) k f := by
  induction m with
  | nil => rfl
  | cons x m ih =>
    obtain ⟨k', u⟩ := x
    by_cases e : k' = k
    · subst e
      cases hf : f u <;> simp [AMap.alter, h, hf]
    · by_cases e2 : k' = j
      · subst e2
        cases hg : g u <;> simp [AMap.alter, e, hg]
      · simp [AMap.alter, e, e2, ih]

theorem AMap.alter_same {m : AMap K V} {k : K} {f g : V → Option V}
    (h : ∀ v, AMap.get? m k = some v → ∃ x y z, f v = some x ∧ g v = some y ∧ g x = some z ∧ f y = some z) :
    AMap.alter (AMap.alter m k f) k g = AMap.alter (AMap.alter m k g) k f := by
  induction m with
  | nil => rfl
  | cons x m ih =>
    obtain ⟨k', u⟩ := x
    by_cases e : k' = k
    · subst e
      obtain ⟨x, y, z, h1, h2, h3, h4⟩ := h u (by simp [AMap.get?])
      simp [AMap.alter, h1, h2, h3, h4]
    · simp only [AMap.get?, if_neg e] at h
      simp [AMap.alter, e, ih h]

theorem AMap.get?_alter_other (m : AMap K V) {k j : K} (f : V → Option V) (h : j ≠ k) :
    AMap.get? (AMap.alter m k f) j = AMap.get? m j := by
  induction m with
  | nil => rfl
  | cons x m ih =>
    obtain ⟨k', u⟩ := x
    by_cases e : k' = k
    · subst e
      cases hf : f u <;> simp [AMap.alter, AMap.get?, h.symm, hf]
    · simp [AMap.alter, AMap.get?, e, ih]

theorem AMap.get?_alter_self (m : AMap K V) {k : K} {f : V → Option V} (hf : ∀ v, f v ≠ none) :
    AMap.get? (AMap.alter m k f) k = (AMap.get? m k).bind f := by
  induction m with
  | nil => rfl
  | cons x m ih =>
    obtain ⟨k', u⟩ := x
    by_cases e : k' = k
    · subst e
      cases h : f u with
      | none => exact absurd h (hf u)
      | some v => simp [AMap.alter, AMap.get?, h]
    · simp [AMap.alter, AMap.get?, e, ih]

theorem upd_map {f : K → Option V} {a : K} {p : V} (g : V → V) (h : f a = some p) :
    upd f a (some (g p)) = fun x => if x = a then (f x).map g else f x := by
  funext x
  unfold upd
  split
  · next e => subst e; rw [h]; rfl
  · rfl

end maps

theorem set_modify {α : Type} {l : List α} {i : Nat} {r : α} (f : α → α) (h : l[i]? = some r) :
    l.set i (f r) = l.modify i f := by
  induction l generalizing i with
  | nil => simp at h
  | cons x l ih =>
    cases i with
    | zero => simp at h; subst h; simp
    | succ i => simp at h; simp [ih h]

/-! ## Effects -/

/-- What an instruction of the settlement does to the ledger. -/
structure Eff where
  sale : Addr
  idx : Nat
  claimed : Nat
  refunded : Nat
  closed : Nat
  raise : Bool
  fee : Bool
  unsold : Bool
  key : Addr
  alt : Escrow → Option Escrow
  due : Nat
  time : Nat
  vault : Addr
  out : Nat
  dst : Addr
  net : Nat
  mint : Addr
  burnt : Nat

namespace Eff

def reg (E : Eff) (r : Registry) : Registry :=
  { r with totalEscrow := r.totalEscrow - E.closed, totalClaimedToken := r.totalClaimedToken + E.claimed,
           totalRefundedQuoteToken := r.totalRefundedQuoteToken + E.refunded }

def pre (E : Eff) (p : Presale) : Presale :=
  { p with totalEscrow := p.totalEscrow - E.closed, totalClaimedToken := p.totalClaimedToken + E.claimed,
           totalRefundedQuoteToken := p.totalRefundedQuoteToken + E.refunded,
           hasCreatorWithdrawn := cond E.raise 1 p.hasCreatorWithdrawn,
           depositFeeCollected := cond E.fee 1 p.depositFeeCollected,
           isUnsoldTokenActionPerformed := cond E.unsold 1 p.isUnsoldTokenActionPerformed,
           registries := p.registries.modify E.idx E.reg }

def acct (E : Eff) (x : Addr) (t : TokAcct) : TokAcct :=
  { t with amount := t.amount - (if x = E.vault then E.out else 0) + (if x = E.dst then E.net else 0) }

def coin (E : Eff) (x : Addr) (m : MintInfo) : MintInfo :=
  { m with supply := m.supply - (if x = E.mint then E.burnt else 0) }

def tokens (E : Eff) (k : Tokens) : Tokens :=
  { toks := fun x => (k.toks x).map (E.acct x), mints := fun x => (k.mints x).map (E.coin x) }

def sales (E : Eff) (f : Addr → Option Presale) : Addr → Option Presale :=
  fun x => if x = E.sale then (f x).map E.pre else f x

/-- The ledger with the effect `E`. -/
def run (E : Eff) (w : World) : World :=
  { w with presales := E.sales w.presales, escrows := AMap.alter w.escrows E.key E.alt, tk := E.tokens w.tk }

end Eff

theorem modify_swap {α : Type} (l : List α) (i j : Nat) {f g : α → α} (h : ∀ x, f (g x) = g (f x)) :
    (l.modify i f).modify j g = (l.modify j g).modify i f := by
  by_cases e : i = j
  · subst e
    rw [List.modify_modify_eq, List.modify_modify_eq]
    congr 1
    funext x
    exact (h x).symm
  · exact List.modify_modify_ne f g l e

theorem Eff.reg_swap (E F : Eff) (r : Registry) : E.reg (F.reg r) = F.reg (E.reg r) := by
  unfold Eff.reg
  simp only [Nat.sub_right_comm, Nat.add_right_comm]

theorem Eff.pre_swap (E F : Eff) (p : Presale) : E.pre (F.pre p) = F.pre (E.pre p) := by
  unfold Eff.pre
  simp only [Nat.sub_right_comm p.totalEscrow E.closed F.closed, Nat.add_right_comm _ E.claimed F.claimed,
    Nat.add_right_comm _ E.refunded F.refunded,
    modify_swap p.registries E.idx F.idx (f := E.reg) (g := F.reg) (Eff.reg_swap E F)]
  congr 1
  · cases E.fee <;> cases F.fee <;> rfl
  · cases E.raise <;> cases F.raise <;> rfl
  · cases E.unsold <;> cases F.unsold <;> rfl

theorem Eff.sales_swap (E F : Eff) (f : Addr → Option Presale) : E.sales (F.sales f) = F.sales (E.sales f) := by
  funext x
  unfold Eff.sales
  by_cases h1 : x = E.sale
  · by_cases h2 : x = F.sale
    · rw [if_pos h1, if_pos h2, if_pos h2, if_pos h1, Option.map_map, Option.map_map]
      congr 1
      funext p
      exact E.pre_swap F p
    · rw [if_pos h1, if_neg h2, if_neg h2, if_pos h1]
  · by_cases h2 : x = F.sale
    · rw [if_neg h1, if_pos h2, if_pos h2, if_neg h1]
    · rw [if_neg h1, if_neg h2, if_neg h2, if_neg h1]

/-- The changes an instruction makes to an escrow, by slot. -/
inductive Alt (due time : Nat) : Slot → Addr → (Escrow → Option Escrow) → Prop
  | claim (k : Addr) : Alt due time (.claim k) k (fun e => some
      { e with totalClaimedToken := max e.totalClaimedToken due, pendingClaimToken := 0, lastRefreshedAt := time })
  | refund (k : Addr) : Alt due time (.refund k) k (fun e => some { e with isRemainingQuoteWithdrawn := 1 })
  | refresh (k : Addr) : Alt due time (.refresh k) k (fun e => some
      { e with pendingClaimToken := due - e.totalClaimedToken, lastRefreshedAt := time })
  | close (k : Addr) : Alt due time (.close k) k (fun _ => none)
  | same (s : Slot) (k : Addr) (h : ∀ j, s ≠ .close j) : Alt due time s k some

/-- The effect `E` is one of an instruction with slot `s`. -/
structure Fitting (s : Slot) (E : Eff) : Prop where
  vault : E.vault.isVault = true
  dst : E.dst.isVault = false
  raise : E.raise = true → s = .raise E.sale
  fee : E.fee = true → s = .fee E.sale
  unsold : E.unsold = true → s = .unsold E.sale
  alt : Alt E.due E.time s E.key E.alt

theorem Eff.acct_swap {s t : Slot} {E F : Eff} (hE : Fitting s E) (hF : Fitting t F) (x : Addr) (a : TokAcct) :
    E.acct x (F.acct x a) = F.acct x (E.acct x a) := by
  unfold Eff.acct
  cases hx : x.isVault with
  | true =>
    have h1 : x ≠ E.dst := by intro h; rw [h, hE.dst] at hx; cases hx
    have h2 : x ≠ F.dst := by intro h; rw [h, hF.dst] at hx; cases hx
    simp only [if_neg h1, if_neg h2, Nat.add_zero, Nat.sub_right_comm]
  | false =>
    have h1 : x ≠ E.vault := by intro h; rw [h, hE.vault] at hx; cases hx
    have h2 : x ≠ F.vault := by intro h; rw [h, hF.vault] at hx; cases hx
    simp only [if_neg h1, if_neg h2, Nat.sub_zero, Nat.add_right_comm]

theorem Eff.tokens_swap {s t : Slot} {E F : Eff} (hE : Fitting s E) (hF : Fitting t F) (k : Tokens) :
    E.tokens (F.tokens k) = F.tokens (E.tokens k) := by
  unfold Eff.tokens
  congr 1
  · funext x
    simp only [Option.map_map]
    congr 1
    funext a
    exact Eff.acct_swap hE hF x a
  · funext x
    simp only [Option.map_map]
    congr 1
    funext m
    simp only [Function.comp_apply, Eff.coin, Nat.sub_right_comm]

theorem Eff.alter_swap {s t : Slot} {E F : Eff} (hE : Fitting s E) (hF : Fitting t F) (hst : s.Separate t)
    (hd : E.key = F.key → (∀ k, s ≠ .close k) → E.due = F.due) (ht : E.time = F.time) (m : AMap Addr Escrow) :
    AMap.alter (AMap.alter m F.key F.alt) E.key E.alt = AMap.alter (AMap.alter m E.key E.alt) F.key F.alt := by
  have a1 := hE.alt
  have a2 := hF.alt
  by_cases hk : E.key = F.key
  · have hdue := hd hk
    clear hd
    obtain ⟨sale, idx, claimed, refunded, closed, raise, fee, unsold, key, alt, due, time, vault, out, dst, net, mint, burnt⟩ := E
    obtain ⟨sale', idx', claimed', refunded', closed', raise', fee', unsold', key', alt', due', time', vault', out', dst', net', mint', burnt'⟩ := F
    simp only at *
    subst hk ht
    obtain ⟨hne, hc1, hc2⟩ := hst
    cases a1 with
    | same s k h => simp only [AMap.alter_some]
    | close k =>
      cases a2 with
      | same s k h => simp only [AMap.alter_some]
      | claim k => exact absurd rfl (hc1 _ rfl)
      | refund k => exact absurd rfl (hc1 _ rfl)
      | refresh k => exact absurd rfl (hc1 _ rfl)
      | close k => exact absurd rfl hne
    | claim k =>
      have hd' := hdue (by intro k h; cases h)
      subst hd'
      cases a2 with
      | same s k h => simp only [AMap.alter_some]
      | claim k => exact absurd rfl hne
      | refund k => exact AMap.alter_same fun e _ => ⟨_, _, _, rfl, rfl, rfl, rfl⟩
      | refresh k =>
        refine AMap.alter_same fun e _ => ⟨_, _, _, rfl, rfl, rfl, ?_⟩
        have : due - max e.totalClaimedToken due = 0 := by omega
        simp only [this]
      | close k => exact absurd rfl (hc2 _ rfl)
    | refund k =>
      cases a2 with
      | same s k h => simp only [AMap.alter_some]
      | claim k => exact AMap.alter_same fun e _ => ⟨_, _, _, rfl, rfl, rfl, rfl⟩
      | refund k => exact absurd rfl hne
      | refresh k => exact AMap.alter_same fun e _ => ⟨_, _, _, rfl, rfl, rfl, rfl⟩
      | close k => exact absurd rfl (hc2 _ rfl)
    | refresh k =>
      have hd' := hdue (by intro k h; cases h)
      subst hd'
      cases a2 with
      | same s k h => simp only [AMap.alter_some]
      | claim k =>
        refine AMap.alter_same fun e _ => ⟨_, _, _, rfl, rfl, rfl, ?_⟩
        have : due - max e.totalClaimedToken due = 0 := by omega
        simp only [this]
      | refund k => exact AMap.alter_same fun e _ => ⟨_, _, _, rfl, rfl, rfl, rfl⟩
      | refresh k => exact absurd rfl hne
      | close k => exact absurd rfl (hc2 _ rfl)
  · exact AMap.alter_swap m _ _ (Ne.symm hk)

/-- Effects of separate slots commute. -/
theorem Eff.run_swap {s t : Slot} {E F : Eff} (hE : Fitting s E) (hF : Fitting t F) (hst : s.Separate t)
    (hd : E.key = F.key → (∀ k, s ≠ .close k) → E.due = F.due) (ht : E.time = F.time) (w : World) :
    E.run (F.run w) = F.run (E.run w) := by
  unfold Eff.run
  simp only [Eff.sales_swap E F, Eff.tokens_swap hE hF, Eff.alter_swap hE hF hst hd ht]

/-! ## What the other instruction sees -/

/-- An escrow without what settling changes. -/
def plainEscrow (e : Escrow) : Escrow :=
  { e with totalClaimedToken := 0, isRemainingQuoteWithdrawn := 0, pendingClaimToken := 0, lastRefreshedAt := 0 }

/-- The ledgers differ at most in what an instruction with slot `s` changes. -/
structure Alike (s : Slot) (w w1 : World) : Prop where
  clock : w1.clock = w.clock
  sale : ∀ a, (w1.presales a).map books = (w.presales a).map books
  raise : ∀ a, s ≠ .raise a →
    (w1.presales a).map (·.hasCreatorWithdrawn) = (w.presales a).map (·.hasCreatorWithdrawn)
  fee : ∀ a, s ≠ .fee a → (w1.presales a).map (·.depositFeeCollected) = (w.presales a).map (·.depositFeeCollected)
  unsold : ∀ a, s ≠ .unsold a →
    (w1.presales a).map (·.isUnsoldTokenActionPerformed) = (w.presales a).map (·.isUnsoldTokenActionPerformed)
  escrow : ∀ k, s ≠ .close k → (w1.escrows.get? k).map plainEscrow = (w.escrows.get? k).map plainEscrow
  claimed : ∀ k, s ≠ .close k → s ≠ .claim k →
    (w1.escrows.get? k).map (·.totalClaimedToken) = (w.escrows.get? k).map (·.totalClaimedToken)
  refunded : ∀ k, s ≠ .close k → s ≠ .refund k →
    (w1.escrows.get? k).map (·.isRemainingQuoteWithdrawn) = (w.escrows.get? k).map (·.isRemainingQuoteWithdrawn)
  toks : ∀ a, (w1.tk.toks a).map (fun t => { t with amount := 0 }) = (w.tk.toks a).map (fun t => { t with amount := 0 })
  mints : ∀ a, (w1.tk.mints a).map (fun m => { m with supply := 0 }) = (w.tk.mints a).map (fun m => { m with supply := 0 })

theorem Alike.symm {s : Slot} {w w1 : World} (A : Alike s w w1) : Alike s w1 w :=
  ⟨A.clock.symm, fun a => (A.sale a).symm, fun a h => (A.raise a h).symm, fun a h => (A.fee a h).symm,
    fun a h => (A.unsold a h).symm, fun k h => (A.escrow k h).symm, fun k h h' => (A.claimed k h h').symm,
    fun k h h' => (A.refunded k h h').symm, fun a => (A.toks a).symm, fun a => (A.mints a).symm⟩

theorem Eff.books_pre (E : Eff) (p : Presale) : books (E.pre p) = books p := by
  unfold books Eff.pre
  simp only
  congr 1
  apply List.ext_getElem?
  intro j
  rw [List.getElem?_map, List.getElem?_map, List.getElem?_modify]
  cases p.registries[j]? with
  | none => simp
  | some r =>
    simp only [Option.map_eq_map, Option.map_some]
    split <;> rfl

theorem Eff.alike {s : Slot} {E : Eff} (hE : Fitting s E) (w : World) : Alike s w (E.run w) := by
  have hp : ∀ {β : Type} (a : Addr) (g : Presale → β), (a = E.sale → ∀ p, g (E.pre p) = g p) →
      ((E.run w).presales a).map g = (w.presales a).map g := by
    intro β a g hg
    show (E.sales w.presales a).map g = _
    unfold Eff.sales
    split
    · next h =>
      rw [Option.map_map]
      congr 1
      funext p
      exact hg h p
    · rfl
  have he : ∀ {β : Type} (k : Addr) (g : Escrow → β), s ≠ .close k →
      (k = E.key → ∀ e e', E.alt e = some e' → g e' = g e) →
      ((E.run w).escrows.get? k).map g = (w.escrows.get? k).map g := by
    intro β k g hc hg
    show ((AMap.alter w.escrows E.key E.alt).get? k).map g = _
    by_cases hk : k = E.key
    · have hn : ∀ e, E.alt e ≠ none := by
        have := hE.alt
        intro e
        generalize E.alt = f at this
        cases this with
        | close k' => exact absurd (by rw [hk]) hc
        | _ => intro h; cases h
      rw [← hk, AMap.get?_alter_self _ hn]
      cases h : AMap.get? w.escrows k with
      | none => rfl
      | some e =>
        cases h' : E.alt e with
        | none => exact absurd h' (hn e)
        | some e' => simp only [Option.bind_some, h', Option.map_some, hg hk e e' h']
    · rw [AMap.get?_alter_other _ _ hk]
  have alt := hE.alt
  refine ⟨rfl, fun a => hp a _ fun _ => E.books_pre, fun a h => hp a _ fun e p => ?_, fun a h => hp a _ fun e p => ?_,
    fun a h => hp a _ fun e p => ?_, fun k h => he k _ h fun hk e e' hs => ?_, fun k h h' => he k _ h fun hk e e' hs => ?_,
    fun k h h' => he k _ h fun hk e e' hs => ?_, fun a => ?_, fun a => ?_⟩
  · cases hr : E.raise with
    | true => exact absurd (e ▸ hE.raise hr) h
    | false => simp [Eff.pre, hr]
  · cases hr : E.fee with
    | true => exact absurd (e ▸ hE.fee hr) h
    | false => simp [Eff.pre, hr]
  · cases hr : E.unsold with
    | true => exact absurd (e ▸ hE.unsold hr) h
    | false => simp [Eff.pre, hr]
  · generalize E.alt = f at alt hs
    cases alt with
    | close => cases hs
    | _ => cases hs; rfl
  · generalize E.alt = f at alt hs
    rw [hk] at h'
    cases alt with
    | close => cases hs
    | claim => exact absurd rfl h'
    | _ => cases hs; rfl
  · generalize E.alt = f at alt hs
    rw [hk] at h'
    cases alt with
    | close => cases hs
    | refund => exact absurd rfl h'
    | _ => cases hs; rfl
  · show ((w.tk.toks a).map (E.acct a)).map _ = _
    rw [Option.map_map]; rfl
  · show ((w.tk.mints a).map (E.coin a)).map _ = _
    rw [Option.map_map]; rfl

theorem of_map_eq {α β : Type} {g : α → β} {o o' : Option α} {v : α} (h : o'.map g = o.map g) (hv : o' = some v) :
    ∃ u, o = some u ∧ g u = g v := by
  subst hv
  cases o with
  | none => cases h
  | some u => exact ⟨u, rfl, by simpa using h.symm⟩

theorem same_of_map {α β : Type} {g : α → β} {o o' : Option α} {u v : α} (h : o'.map g = o.map g) (hv : o' = some v)
    (hu : o = some u) : g u = g v := by
  subst hv hu
  simpa using h.symm

section see
variable {s : Slot} {w w1 : World}

theorem Alike.sale_of (A : Alike s w w1) {a : Addr} {p1 : Presale} (h : w1.presales a = some p1) :
    ∃ p, w.presales a = some p ∧ books p = books p1 ∧
      (s ≠ .raise a → p.hasCreatorWithdrawn = p1.hasCreatorWithdrawn) ∧
      (s ≠ .fee a → p.depositFeeCollected = p1.depositFeeCollected) ∧
      (s ≠ .unsold a → p.isUnsoldTokenActionPerformed = p1.isUnsoldTokenActionPerformed) := by
  obtain ⟨p, hp, hb⟩ := of_map_eq (A.sale a) h
  exact ⟨p, hp, hb, fun hs => same_of_map (A.raise a hs) h hp, fun hs => same_of_map (A.fee a hs) h hp,
    fun hs => same_of_map (A.unsold a hs) h hp⟩

theorem Alike.escrow_of (A : Alike s w w1) {k : Addr} {e1 : Escrow} (hs : s ≠ .close k)
    (h : w1.escrows.get? k = some e1) :
    ∃ e, w.escrows.get? k = some e ∧ plainEscrow e = plainEscrow e1 ∧
      (s ≠ .claim k → e.totalClaimedToken = e1.totalClaimedToken) ∧
      (s ≠ .refund k → e.isRemainingQuoteWithdrawn = e1.isRemainingQuoteWithdrawn) := by
  obtain ⟨e, he, hb⟩ := of_map_eq (A.escrow k hs) h
  exact ⟨e, he, hb, fun h' => same_of_map (A.claimed k hs h') h he, fun h' => same_of_map (A.refunded k hs h') h he⟩

theorem Alike.tok_of (A : Alike s w w1) {a : Addr} {t1 : TokAcct} (h : w1.tk.toks a = some t1) :
    ∃ t, w.tk.toks a = some t ∧ t.mint = t1.mint ∧ t.owner = t1.owner ∧ t.frozen = t1.frozen ∧
      t.delegate = t1.delegate := by
  obtain ⟨t, ht, hb⟩ := of_map_eq (A.toks a) h
  exact ⟨t, ht, (congrArg TokAcct.mint hb :), (congrArg TokAcct.owner hb :), (congrArg TokAcct.frozen hb :),
    (congrArg TokAcct.delegate hb :)⟩

theorem Alike.mint_of (A : Alike s w w1) {a : Addr} {m1 : MintInfo} (h : w1.tk.mints a = some m1) :
    ∃ m, w.tk.mints a = some m ∧ m1 = { m with supply := m1.supply } := by
  obtain ⟨m, hm, hb⟩ := of_map_eq (A.mints a) h
  refine ⟨m, hm, ?_⟩
  obtain ⟨a1, a2, a3, a4, a5, a6⟩ := m
  obtain ⟨b1, b2, b3, b4, b5, b6⟩ := m1
  simp only [MintInfo.mk.injEq] at hb ⊢
  simp only [hb, and_self]

end see

/-! ## Congruences -/

/-- What escrow `k` may have claimed by now. -/
def dueAt (w : World) (k : Addr) : Nat :=
  match w.escrows.get? k with
  | none => 0
  | some e =>
    match w.presales e.presale with
    | none => 0
    | some p =>
      match p.registries[e.registryIndex]? with
      | none => 0
      | some r => claimableAt p r e w.clock.toNat

theorem dueAt_eq {w : World} {k : Addr} {e : Escrow} {p : Presale} {r : Registry} (he : w.escrows.get? k = some e)
    (hp : w.presales e.presale = some p) (hr : p.registries[e.registryIndex]? = some r) :
    dueAt w k = claimableAt p r e w.clock.toNat := by
  unfold dueAt
  simp only [he, hp, hr]

structure SameEscrow (e e1 : Escrow) : Prop where
  presale : e.presale = e1.presale
  owner : e.owner = e1.owner
  deposit : e.totalDeposit = e1.totalDeposit
  fee : e.totalDepositFee = e1.totalDepositFee
  index : e.registryIndex = e1.registryIndex

theorem same_of_plain {e e1 : Escrow} (h : plainEscrow e = plainEscrow e1) : SameEscrow e e1 :=
  ⟨(congrArg Escrow.presale h :), (congrArg Escrow.owner h :), (congrArg Escrow.totalDeposit h :),
    (congrArg Escrow.totalDepositFee h :), (congrArg Escrow.registryIndex h :)⟩

theorem dueAt_none {w : World} {k : Addr} (h : w.escrows.get? k = none) : dueAt w k = 0 := by
  unfold dueAt; simp only [h]

theorem Alike.dueAt_eq {s : Slot} {w w1 : World} (A : Alike s w w1) {k : Addr} (hs : s ≠ .close k) :
    dueAt w1 k = dueAt w k := by
  cases h : w1.escrows.get? k with
  | none =>
    have := A.escrow k hs
    rw [h] at this
    cases h' : w.escrows.get? k with
    | some e => rw [h'] at this; cases this
    | none => rw [dueAt_none h, dueAt_none h']
  | some e1 =>
    obtain ⟨e, he, hb, _, _⟩ := A.escrow_of hs h
    have S := same_of_plain hb
    unfold dueAt
    simp only [h, he, S.presale]
    cases hp1 : w1.presales e1.presale with
    | none =>
      have := A.sale e1.presale
      rw [hp1] at this
      cases hp : w.presales e1.presale with
      | some p => rw [hp] at this; cases this
      | none => rfl
    | some p1 =>
      obtain ⟨p, hp, hbp, _⟩ := A.sale_of hp1
      simp only [hp, S.index]
      cases hr1 : p1.registries[e1.registryIndex]? with
      | none =>
        cases hr : p.registries[e1.registryIndex]? with
        | none => rfl
        | some r =>
          obtain ⟨r', hr', _⟩ := books_reg hbp.symm hr
          rw [hr1] at hr'; cases hr'
      | some r1 =>
        obtain ⟨r, hr, hbr⟩ := books_reg hbp hr1
        simp only [hr, A.clock]
        exact (claimableAt_congr hbp hbr S.deposit _).symm

section congr
variable {p p1 : Presale} {t : Int}

theorem over_congr (h : books p = books p1) : Over p t = Over p1 t := by
  show Over (books p) t = Over (books p1) t
  rw [h]

theorem completed_congr (h : books p = books p1) : Completed p t = Completed p1 t := by
  show Completed (books p) t = Completed (books p1) t
  rw [h]

theorem failed_congr (h : books p = books p1) : Failed p t = Failed p1 t := by
  show Failed (books p) t = Failed (books p1) t
  rw [h]

end congr

/-! ## Payments -/

theorem Eff.tokens_paid {E : Eff} {k : Tokens} {v d : TokAcct} (hv : k.toks E.vault = some v)
    (hd : k.toks E.dst = some d) (hne : E.vault ≠ E.dst) (hb : E.burnt = 0) :
    E.tokens k = { k with
      toks := upd (upd k.toks E.vault (some { v with amount := v.amount - E.out }))
        E.dst (some { d with amount := d.amount + E.net }) } := by
  unfold Eff.tokens
  congr 1
  · funext x
    unfold upd Eff.acct
    by_cases h1 : x = E.dst
    · subst h1
      rw [if_pos rfl, hd]
      simp [Ne.symm hne]
    · by_cases h2 : x = E.vault
      · subst h2
        rw [if_neg h1, if_pos rfl, hv]
        simp [hne]
      · rw [if_neg h1, if_neg h2]
        simp [h1, h2]
  · funext x
    unfold Eff.coin
    simp [hb]

theorem Eff.tokens_none {E : Eff} {k : Tokens} (h1 : E.out = 0) (h2 : E.net = 0) (hb : E.burnt = 0) : E.tokens k = k := by
  unfold Eff.tokens Eff.acct Eff.coin
  simp [h1, h2, hb]

theorem Eff.tokens_burnt {E : Eff} {k : Tokens} {v : TokAcct} {m : MintInfo} (hv : k.toks E.vault = some v)
    (hm : k.mints E.mint = some m) (hn : E.net = 0) :
    E.tokens k = { toks := upd k.toks E.vault (some { v with amount := v.amount - E.out }),
                   mints := upd k.mints E.mint (some { m with supply := m.supply - E.burnt }) } := by
  unfold Eff.tokens
  congr 1
  · funext x
    unfold upd Eff.acct
    by_cases h2 : x = E.vault
    · subst h2
      rw [if_pos rfl, hv]
      simp [hn]
    · rw [if_neg h2]
      simp [h2, hn]
  · funext x
    unfold upd Eff.coin
    by_cases h2 : x = E.mint
    · subst h2
      rw [if_pos rfl, hm]
      simp
    · rw [if_neg h2]
      simp [h2]

/-- There is room for what `E` adds, and supply for what it burns. -/
structure Room (E : Eff) (w : World) : Prop where
  amount : ∀ d, w.tk.toks E.dst = some d → d.amount + E.net < 2 ^ 64
  supply : ∀ m, w.tk.mints E.mint = some m → E.burnt ≤ m.supply

theorem vault_ne {x y : Addr} (hx : x.isVault = true) (hy : y.isVault = false) : x ≠ y := by
  intro h; rw [h, hy] at hx; cases hx

section pay
variable {s : Slot} {w w1 : World}

theorem hooks_near (A : Alike s w w1) {kind : AccountsType} {mint : Addr} {passed : List Addr} {slices : List RemSlice}
    (h : HooksRight w1.tk kind mint passed slices) : HooksRight w.tk kind mint passed slices := by
  obtain ⟨m1, hm1, hx⟩ := h
  obtain ⟨m, hm, e⟩ := A.mint_of hm1
  rw [e] at hx
  exact ⟨m, hm, hx.kinds, hx.enough, hx.count⟩

theorem paid_near (A : Alike s w w1) {tx : Tx} {mint vault dst : Addr} {prog : TokenProgram} {n : Nat} {k' : Tokens}
    (hv : vault.isVault = true) (hd : dst.isVault = false) (P : PaidOut w1.tk tx mint vault dst prog n k') :
    ∃ net, ∀ E : Eff, E.vault = vault → E.out = n → E.dst = dst → E.net = net → E.burnt = 0 →
      k' = E.tokens w1.tk ∧ Room E w1 ∧ (Room E w → PaidOut w.tk tx mint vault dst prog n (E.tokens w.tk)) := by
  have hne := vault_ne hv hd
  obtain ⟨ha, m1, v1, d1, hm1, hp, hv1, hf, hd1, hdm, hdf, hh⟩ := P
  rcases hh with ⟨h, _⟩ | ⟨_, hroom, rfl⟩
  · exact absurd h hne
  obtain ⟨m, hm, em⟩ := A.mint_of hm1
  obtain ⟨v, hv', v1', v2', v3', v4'⟩ := A.tok_of hv1
  obtain ⟨d, hd', d1', d2', d3', d4'⟩ := A.tok_of hd1
  refine ⟨n - m1.transferFee n, fun E e1 e2 e3 e4 e5 => ?_⟩
  have efee : m1.transferFee n = m.transferFee n := by rw [em]; rfl
  refine ⟨?_, ⟨fun d hd2 => ?_, fun m _ => by rw [e5]; exact Nat.zero_le _⟩, fun r => ⟨ha, m, v, d, hm, ?_, hv', ?_, hd', ?_, ?_, .inr ⟨hne, ?_, ?_⟩⟩⟩
  · rw [Eff.tokens_paid (E := E) (by rw [e1]; exact hv1) (by rw [e3]; exact hd1) (by rw [e1, e3]; exact hne) e5, e1, e2, e3, e4]
  · rw [e3, hd1] at hd2; cases hd2
    rw [e4]; exact hroom
  · rw [em] at hp; exact hp
  · rw [v3', hf]
  · rw [d1', hdm]
  · rw [d3', hdf]
  · have := r.amount d (by rw [e3]; exact hd')
    rw [e4, efee] at this
    exact this
  · rw [Eff.tokens_paid (E := E) (by rw [e1]; exact hv') (by rw [e3]; exact hd') (by rw [e1, e3]; exact hne) e5, e1, e2, e3, e4, efee]

theorem room_none {E : Eff} (W : WInv w) (h : E.net = 0) (hb : E.burnt = 0) : Room E w :=
  ⟨fun d hd => by rw [h]; have := W.core.amounts _ _ hd; simp only [u64Bound] at this; omega, fun m _ => by rw [hb]; exact Nat.zero_le _⟩

theorem pay_near (A : Alike s w w1) (W : WInv w1) {tx : Tx} {mint vault dst : Addr} {prog : TokenProgram} {n : Nat}
    {k' : Tokens} {kind : AccountsType} {passed : List Addr} {slices : List RemSlice}
    (hv : vault.isVault = true) (hd : dst.isVault = false) (h0 : n = 0 → k' = w1.tk)
    (hp : 0 < n → HooksRight w1.tk kind mint passed slices ∧ PaidOut w1.tk tx mint vault dst prog n k') :
    ∃ net, ∀ E : Eff, E.vault = vault → E.out = n → E.dst = dst → E.net = net → E.burnt = 0 →
      k' = E.tokens w1.tk ∧ Room E w1 ∧ (Room E w → (n = 0 → E.tokens w.tk = w.tk) ∧ (0 < n →
        HooksRight w.tk kind mint passed slices ∧ PaidOut w.tk tx mint vault dst prog n (E.tokens w.tk))) := by
  rcases Nat.eq_zero_or_pos n with hn | hn
  · refine ⟨0, fun E _ e2 _ e4 e5 => ?_⟩
    rw [hn] at e2
    refine ⟨?_, room_none W e4 e5, fun _ => ⟨fun _ => Eff.tokens_none e2 e4 e5, fun h => by omega⟩⟩
    rw [h0 hn, Eff.tokens_none e2 e4 e5]
  · obtain ⟨net, hk⟩ := paid_near A hv hd (hp hn).2
    refine ⟨net, fun E e1 e2 e3 e4 e5 => ?_⟩
    obtain ⟨g1, g2, g3⟩ := hk E e1 e2 e3 e4 e5
    exact ⟨g1, g2, fun hroom => ⟨fun h => by omega, fun _ => ⟨hooks_near A (hp hn).1, g3 hroom⟩⟩⟩

end pay

/-! ## Effects of the instructions -/

theorem Eff.run_escrow {E : Eff} {w : World} {p : Presale} {r : Registry} {e e' : Escrow}
    (hp : w.presales E.sale = some p) (hr : p.registries[E.idx]? = some r) (he : w.escrows.get? E.key = some e)
    (ha : E.alt e = some e') :
    E.run w = { w with
      presales := upd w.presales E.sale (some { E.pre p with registries := p.registries.set E.idx (E.reg r) }),
      escrows := w.escrows.set E.key e',
      tk := E.tokens w.tk } := by
  unfold Eff.run Eff.sales
  rw [AMap.alter_set he ha, set_modify E.reg hr, ← upd_map E.pre hp]
  rfl

theorem Eff.run_close {E : Eff} {w : World} {p : Presale} {r : Registry} {e : Escrow}
    (hp : w.presales E.sale = some p) (hr : p.registries[E.idx]? = some r) (he : w.escrows.get? E.key = some e)
    (ha : E.alt e = none) :
    E.run w = { w with
      presales := upd w.presales E.sale (some { E.pre p with registries := p.registries.set E.idx (E.reg r) }),
      escrows := w.escrows.erase E.key,
      tk := E.tokens w.tk } := by
  unfold Eff.run Eff.sales
  rw [AMap.alter_erase he ha, set_modify E.reg hr, ← upd_map E.pre hp]
  rfl

theorem Eff.run_flag {E : Eff} {w : World} {p : Presale} (hp : w.presales E.sale = some p) (h1 : E.claimed = 0)
    (h2 : E.refunded = 0) (h3 : E.closed = 0) (ha : E.alt = some) :
    E.run w = { w with
      presales := upd w.presales E.sale (some { E.pre p with registries := p.registries }),
      tk := E.tokens w.tk } := by
  have hid : E.reg = id := by funext r; unfold Eff.reg; simp [h1, h2, h3]
  have hm : E.pre p = { E.pre p with registries := p.registries } := by
    unfold Eff.pre
    simp only [hid, List.modify_id]
  unfold Eff.run Eff.sales
  rw [← hm, ha, AMap.alter_some, ← upd_map E.pre hp]

/-- An instruction that succeeds at `w1` has there an effect `E`, and has the same effect at `w`. -/
structure Near (t : Slot) (w w1 w12 : World) (tx : Tx) (i : Ix) (E : Eff) : Prop where
  fits : Fitting t E
  run : w12 = E.run w1
  due : E.due = dueAt w1 E.key
  time : E.time = w1.clock.toNat
  room : Room E w1
  does : Room E w → Does w tx i (E.run w)

section near
variable {s : Slot} {w w1 w12 : World} {tx : Tx}

theorem claim_near (A : Alike s w w1) (W : WInv w1) {a : ClaimAcc} (hs : s.Separate (.claim a.escrow))
    (hd : a.ownerBaseToken.isVault = false) (D : Does w1 tx (.claim a) w12) :
    ∃ E, Near (.claim a.escrow) w w1 w12 tx (.claim a) E := by
  obtain ⟨p1, e1, r1, n, k', D⟩ := D
  have hsc : s ≠ .close a.escrow := fun h => hs.2.1 _ h rfl
  obtain ⟨p, hp, hbp, _⟩ := A.sale_of D.presale
  obtain ⟨e, he, hbe, hcl, _⟩ := A.escrow_of hsc D.escrow.1
  have hcl := hcl hs.1
  have S := same_of_plain hbe
  obtain ⟨r, hr, hbr⟩ := books_reg hbp D.registry
  have hvault : p1.baseTokenVault.isVault = true := by
    rw [(W.core.sale _ _ D.presale).pinv.static.baseVault]; rfl
  have hbv : p.baseTokenVault = p1.baseTokenVault := (congrArg Presale.baseTokenVault hbp :)
  have hbm : p.baseMint = p1.baseMint := (congrArg Presale.baseMint hbp :)
  have hdue1 : dueAt w1 a.escrow = claimableAt p1 r1 e1 w1.clock.toNat :=
    dueAt_eq D.escrow.1 (by rw [D.escrow.2.1]; exact D.presale) D.registry
  have hmax : ∀ x, x = e1.totalClaimedToken → x + n = max x (dueAt w1 a.escrow) := by
    intro x hx
    rw [hdue1, hx]
    have := D.due
    omega
  obtain ⟨d1, hd1⟩ := D.account
  obtain ⟨d, hd', _⟩ := A.tok_of hd1
  obtain ⟨net, key⟩ := pay_near A W hvault hd D.nothing D.payment
  let E : Eff := {
    sale := a.presale, idx := e1.registryIndex, claimed := n, refunded := 0, closed := 0, raise := false, fee := false,
    unsold := false, key := a.escrow,
    alt := fun e => some { e with
      totalClaimedToken := max e.totalClaimedToken (dueAt w1 a.escrow), pendingClaimToken := 0,
      lastRefreshedAt := w1.clock.toNat },
    due := dueAt w1 a.escrow, time := w1.clock.toNat, vault := p1.baseTokenVault, out := n, dst := a.ownerBaseToken,
    net := net, mint := p1.baseMint, burnt := 0 }
  obtain ⟨g1, g2, g3⟩ := key E rfl rfl rfl rfl rfl
  refine ⟨E, ⟨hvault, hd, fun h => absurd h Bool.false_ne_true, fun h => absurd h Bool.false_ne_true,
    fun h => absurd h Bool.false_ne_true, Alt.claim _⟩, ?_, rfl, rfl, g2,
    fun hroom => ?_⟩
  · rw [D.post, Eff.run_escrow (E := E) D.presale D.registry D.escrow.1 rfl, g1]
    simp only [E, Eff.pre, Eff.reg, ← hmax _ rfl]
    rfl
  · obtain ⟨h0, hpay⟩ := g3 hroom
    refine ⟨p, e, r, n, E.tokens w.tk, hp, ⟨he, S.presale.trans D.escrow.2.1, S.owner.trans D.escrow.2.2⟩, ?_, ?_,
      D.signed, D.fits, ?_, ⟨d, hd'⟩, ?_, h0, by rw [hbm, hbv]; exact hpay, ?_⟩
    · rw [S.index]; exact hr
    · rw [hbv, hbm]; exact D.accounts
    · rw [completed_congr hbp, ← A.clock]; exact D.completed
    · rw [claimableAt_congr hbp hbr S.deposit, hcl, ← A.clock]; exact D.due
    · rw [Eff.run_escrow (E := E) hp hr he rfl]
      simp only [E, Eff.pre, Eff.reg, ← hmax _ hcl, A.clock, S.index]
      rfl

theorem refresh_near (A : Alike s w w1) {a : RefreshAcc} (hs : s.Separate (.refresh a.escrow)) (W : WInv w1)
    (D : Does w1 tx (.refresh a) w12) : ∃ E, Near (.refresh a.escrow) w w1 w12 tx (.refresh a) E := by
  obtain ⟨p1, e1, r1, e1', D⟩ := D
  have hsc : s ≠ .close a.escrow := fun h => hs.2.1 _ h rfl
  obtain ⟨p, hp, hbp, _⟩ := A.sale_of D.presale
  obtain ⟨e, he, hbe, _, _⟩ := A.escrow_of hsc D.escrow.1
  have S := same_of_plain hbe
  obtain ⟨r, hr, hbr⟩ := books_reg hbp D.registry
  have hdue1 : dueAt w1 a.escrow = claimableAt p1 r1 e1 w1.clock.toNat :=
    dueAt_eq D.escrow.1 (by rw [D.escrow.2]; exact D.presale) D.registry
  have hdue : dueAt w1 a.escrow = claimableAt p r e w.clock.toNat := by
    rw [hdue1, claimableAt_congr hbp hbr S.deposit, A.clock]
  have plain : ∀ (E : Eff) (u : World) (e e' : Escrow), u.escrows.get? E.key = some e → E.alt e = some e' →
      E.claimed = 0 → E.refunded = 0 → E.closed = 0 → E.raise = false → E.fee = false → E.unsold = false → E.out = 0 →
      E.net = 0 → E.burnt = 0 → E.run u = { u with escrows := u.escrows.set E.key e' } := by
    intro E u e e' hq e0 e1 e2 e3 e4 e5 e6 e7 e8 e9
    have hid : E.reg = id := by funext r; unfold Eff.reg; simp [e1, e2, e3]
    have hpre : ∀ p, E.pre p = p := by
      intro p
      unfold Eff.pre
      simp [hid, e1, e2, e3, e4, e5, e6]
    unfold Eff.run Eff.sales
    rw [Eff.tokens_none e7 e8 e9, AMap.alter_set hq e0]
    congr 1
    funext x
    split
    · cases u.presales x with
      | none => rfl
      | some q => simp [hpre]
    · rfl
  let E (f : Escrow → Option Escrow) : Eff := {
    sale := a.presale, idx := 0, claimed := 0, refunded := 0, closed := 0, raise := false, fee := false,
    unsold := false, key := a.escrow, alt := f, due := dueAt w1 a.escrow, time := w1.clock.toNat,
    vault := .baseVault a.presale, out := 0, dst := .presaleAuthority, net := 0, mint := p1.baseMint, burnt := 0 }
  by_cases hc : Completed p1 w1.clock
  · let f : Escrow → Option Escrow := fun e => some
      { e with pendingClaimToken := dueAt w1 a.escrow - e.totalClaimedToken, lastRefreshedAt := w1.clock.toNat }
    refine ⟨E f, ⟨rfl, rfl, fun h => absurd h Bool.false_ne_true, fun h => absurd h Bool.false_ne_true,
      fun h => absurd h Bool.false_ne_true, Alt.refresh _⟩, ?_, rfl, rfl, room_none W rfl rfl, fun _ => ?_⟩
    · rw [D.post, plain (E f) w1 e1 _ D.escrow.1 rfl rfl rfl rfl rfl rfl rfl rfl rfl rfl, D.completed hc]
      simp only [E, hdue1]
    · refine ⟨p, e, r, _, hp, ⟨he, S.presale.trans D.escrow.2⟩, by rw [S.index]; exact hr, fun h => ?_, fun _ => rfl, ?_⟩
      · rw [completed_congr hbp, ← A.clock] at h
        exact absurd hc h
      · rw [plain (E f) w e _ he rfl rfl rfl rfl rfl rfl rfl rfl rfl rfl]
        simp only [E, hdue, A.clock]
  · refine ⟨E some, ⟨rfl, rfl, fun h => absurd h Bool.false_ne_true, fun h => absurd h Bool.false_ne_true,
      fun h => absurd h Bool.false_ne_true, Alt.same _ _ (fun j h => by cases h)⟩, ?_, rfl, rfl, room_none W rfl rfl, fun _ => ?_⟩
    · rw [D.post, plain (E some) w1 e1 _ D.escrow.1 rfl rfl rfl rfl rfl rfl rfl rfl rfl rfl, D.early hc]
    · refine ⟨p, e, r, _, hp, ⟨he, S.presale.trans D.escrow.2⟩, by rw [S.index]; exact hr, fun h => rfl, fun h => ?_, ?_⟩
      · rw [completed_congr hbp, ← A.clock] at h
        exact absurd h hc
      · rw [plain (E some) w e _ he rfl rfl rfl rfl rfl rfl rfl rfl rfl rfl]

theorem refund_near (A : Alike s w w1) (W : WInv w1) {a : RefundAcc} (hs : s.Separate (.refund a.escrow))
    (hd : a.ownerQuoteToken.isVault = false) (D : Does w1 tx (.refund a) w12) :
    ∃ E, Near (.refund a.escrow) w w1 w12 tx (.refund a) E := by
  obtain ⟨p1, e1, r1, n, k', D⟩ := D
  have hsc : s ≠ .close a.escrow := fun h => hs.2.1 _ h rfl
  obtain ⟨p, hp, hbp, _⟩ := A.sale_of D.presale
  obtain ⟨e, he, hbe, _, hfl⟩ := A.escrow_of hsc D.escrow.1
  have hfl := hfl hs.1
  have S := same_of_plain hbe
  obtain ⟨r, hr, hbr⟩ := books_reg hbp D.registry
  have hvault : p1.quoteTokenVault.isVault = true := by
    rw [(W.core.sale _ _ D.presale).pinv.static.quoteVault]; rfl
  have hbv : p.quoteTokenVault = p1.quoteTokenVault := (congrArg Presale.quoteTokenVault hbp :)
  have hbm : p.quoteMint = p1.quoteMint := (congrArg Presale.quoteMint hbp :)
  have hmode : p.presaleMode = p1.presaleMode := (congrArg Presale.presaleMode hbp :)
  obtain ⟨d1, hd1⟩ := D.account
  obtain ⟨d, hd', _⟩ := A.tok_of hd1
  obtain ⟨net, key⟩ := pay_near A W hvault hd D.nothing D.payment
  let E : Eff := {
    sale := a.presale, idx := e1.registryIndex, claimed := 0, refunded := n, closed := 0, raise := false, fee := false,
    unsold := false, key := a.escrow, alt := fun e => some { e with isRemainingQuoteWithdrawn := 1 },
    due := dueAt w1 a.escrow, time := w1.clock.toNat, vault := p1.quoteTokenVault, out := n, dst := a.ownerQuoteToken,
    net := net, mint := p1.quoteMint, burnt := 0 }
  obtain ⟨g1, g2, g3⟩ := key E rfl rfl rfl rfl rfl
  refine ⟨E, ⟨hvault, hd, fun h => absurd h Bool.false_ne_true, fun h => absurd h Bool.false_ne_true,
    fun h => absurd h Bool.false_ne_true, Alt.refund _⟩, ?_, rfl, rfl, g2, fun hroom => ?_⟩
  · rw [D.post, Eff.run_escrow (E := E) D.presale D.registry D.escrow.1 rfl, g1]
    rfl
  · obtain ⟨h0, hpay⟩ := g3 hroom
    refine ⟨p, e, r, n, E.tokens w.tk, hp, ⟨he, S.presale.trans D.escrow.2.1, S.owner.trans D.escrow.2.2⟩, ?_, ?_,
      D.signed, D.fits, ?_, hfl.trans D.first, ⟨d, hd'⟩, ?_, D.readable, h0, by rw [hbm, hbv]; exact hpay, ?_⟩
    · rw [S.index]; exact hr
    · rw [hbv, hbm]; exact D.accounts
    · rw [completed_congr hbp, failed_congr hbp, hmode, ← A.clock]; exact D.phase
    · rw [owedRefund_congr hbp hbr S.deposit S.fee]; exact D.due
    · rw [Eff.run_escrow (E := E) hp hr he rfl, S.index]
      rfl

theorem close_near (A : Alike s w w1) (W : WInv w1) {a : CloseEscrowAcc} (hs : s.Separate (.close a.escrow))
    (D : Does w1 tx (.closeEscrow a) w12) : ∃ E, Near (.close a.escrow) w w1 w12 tx (.closeEscrow a) E := by
  obtain ⟨p1, e1, r1, D⟩ := D
  have hk : s.key ≠ some a.escrow := hs.2.2 _ rfl
  obtain ⟨p, hp, hbp, _⟩ := A.sale_of D.presale
  obtain ⟨e, he, hbe, hcl, hfl⟩ := A.escrow_of hs.1 D.escrow.1
  have hcl := hcl (fun h => hk (by rw [h]; rfl))
  have hfl := hfl (fun h => hk (by rw [h]; rfl))
  have S := same_of_plain hbe
  obtain ⟨r, hr, hbr⟩ := books_reg hbp D.registry
  let E : Eff := {
    sale := a.presale, idx := e1.registryIndex, claimed := 0, refunded := 0, closed := 1, raise := false, fee := false,
    unsold := false, key := a.escrow, alt := fun _ => none, due := dueAt w1 a.escrow, time := w1.clock.toNat,
    vault := .baseVault a.presale, out := 0, dst := .presaleAuthority, net := 0, mint := p1.baseMint, burnt := 0 }
  refine ⟨E, ⟨rfl, rfl, fun h => absurd h Bool.false_ne_true, fun h => absurd h Bool.false_ne_true,
    fun h => absurd h Bool.false_ne_true, Alt.close _⟩, ?_, rfl, rfl, room_none W rfl rfl, fun hroom => ?_⟩
  · rw [D.post, Eff.run_close (E := E) D.presale D.registry D.escrow.1 rfl, Eff.tokens_none rfl rfl rfl]
    rfl
  · refine ⟨p, e, r, hp, ⟨he, S.presale.trans D.escrow.2.1, S.owner.trans D.escrow.2.2⟩, ?_, D.receiver, D.signed, ?_, ?_,
      ?_, ?_⟩
    · rw [S.index]; exact hr
    · rw [over_congr hbp, S.deposit, S.fee, ← A.clock]; exact D.empty
    · rw [over_congr hbp, refundDue_congr hbp D.registry S.index S.deposit S.fee hfl, ← A.clock]; exact D.settled
    · rw [completed_congr hbp, claimDue_congr hbp D.registry S.index S.deposit hcl, ← A.clock]; exact D.claimed
    · rw [Eff.run_close (E := E) hp hr he rfl, Eff.tokens_none rfl rfl rfl, S.index]
      rfl

theorem raise_near (A : Alike s w w1) (W : WInv w1) {a : CreatorWithdrawAcc} (hs : s.Separate (.raise a.presale))
    (hd : a.ownerToken.isVault = false) (D : Does w1 tx (.creatorWithdraw a) w12) :
    ∃ E, Near (.raise a.presale) w w1 w12 tx (.creatorWithdraw a) E := by
  obtain ⟨p1, kind, mint, vault, n, left, k', D⟩ := D
  obtain ⟨p, hp, hbp, hfl, _⟩ := A.sale_of D.presale.1
  have hfl := hfl hs.1
  have hvault : vault.isVault = true := by
    have st := (W.core.sale _ _ D.presale.1).pinv.static
    rcases D.gets with ⟨_, _, _, h, _⟩ | ⟨_, _, _, h, _⟩
    · rw [h, st.quoteVault]; rfl
    · rw [h, st.baseVault]; rfl
  obtain ⟨net, key⟩ := paid_near A hvault hd D.payment
  let E : Eff := {
    sale := a.presale, idx := 0, claimed := 0, refunded := 0, closed := 0, raise := true, fee := false,
    unsold := false, key := a.presale, alt := some, due := dueAt w1 a.presale, time := w1.clock.toNat,
    vault := vault, out := n, dst := a.ownerToken, net := net, mint := p1.baseMint, burnt := 0 }
  obtain ⟨g1, g2, g3⟩ := key E rfl rfl rfl rfl rfl
  refine ⟨E, ⟨hvault, hd, fun _ => rfl, fun h => absurd h Bool.false_ne_true,
    fun h => absurd h Bool.false_ne_true, Alt.same _ _ (fun j h => by cases h)⟩, ?_, rfl, rfl, g2, fun hroom => ?_⟩
  · rw [D.post, Eff.run_flag (E := E) D.presale.1 rfl rfl rfl rfl, g1]
    rfl
  · refine ⟨p, kind, mint, vault, n, left, E.tokens w.tk, ⟨hp, ?_⟩, D.signed, D.fits, ?_, hfl.trans D.first, D.accounts,
      hooks_near A D.hooks, g3 hroom, ?_⟩
    · exact (congrArg Presale.owner hbp :).trans D.presale.2
    · have h := D.gets
      unfold CreatorGets at h ⊢
      rw [completed_congr hbp, failed_congr hbp, raise_congr hbp, ← A.clock]
      have h1 : p.quoteMint = p1.quoteMint := (congrArg Presale.quoteMint hbp :)
      have h2 : p.baseMint = p1.baseMint := (congrArg Presale.baseMint hbp :)
      have h3 : p.quoteTokenVault = p1.quoteTokenVault := (congrArg Presale.quoteTokenVault hbp :)
      have h4 : p.baseTokenVault = p1.baseTokenVault := (congrArg Presale.baseTokenVault hbp :)
      have h5 : p.presaleSupply = p1.presaleSupply := (congrArg Presale.presaleSupply hbp :)
      rw [h1, h2, h3, h4, h5]
      exact h
    · rw [Eff.run_flag (E := E) hp rfl rfl rfl rfl]
      rfl

theorem fee_near (A : Alike s w w1) (W : WInv w1) {a : CollectFeeAcc} (hs : s.Separate (.fee a.presale))
    (hd : a.feeReceivingAccount.isVault = false) (D : Does w1 tx (.collectFee a) w12) :
    ∃ E, Near (.fee a.presale) w w1 w12 tx (.collectFee a) E := by
  obtain ⟨p1, k', D⟩ := D
  obtain ⟨p, hp, hbp, _, hfl, _⟩ := A.sale_of D.presale.1
  have hfl := hfl hs.1
  have hvault : p1.quoteTokenVault.isVault = true := by
    rw [(W.core.sale _ _ D.presale.1).pinv.static.quoteVault]; rfl
  have hbv : p.quoteTokenVault = p1.quoteTokenVault := (congrArg Presale.quoteTokenVault hbp :)
  have hbm : p.quoteMint = p1.quoteMint := (congrArg Presale.quoteMint hbp :)
  obtain ⟨d1, hd1⟩ := D.account
  obtain ⟨d, hd', _⟩ := A.tok_of hd1
  obtain ⟨net, key⟩ := pay_near A W hvault hd D.nothing D.payment
  let E : Eff := {
    sale := a.presale, idx := 0, claimed := 0, refunded := 0, closed := 0, raise := false, fee := true,
    unsold := false, key := a.presale, alt := some, due := dueAt w1 a.presale, time := w1.clock.toNat,
    vault := p1.quoteTokenVault, out := collectableFee p1, dst := a.feeReceivingAccount, net := net,
    mint := p1.baseMint, burnt := 0 }
  obtain ⟨g1, g2, g3⟩ := key E rfl rfl rfl rfl rfl
  refine ⟨E, ⟨hvault, hd, fun h => absurd h Bool.false_ne_true, fun _ => rfl,
    fun h => absurd h Bool.false_ne_true, Alt.same _ _ (fun j h => by cases h)⟩, ?_, rfl, rfl, g2, fun hroom => ?_⟩
  · rw [D.post, Eff.run_flag (E := E) D.presale.1 rfl rfl rfl rfl, g1]
    rfl
  · obtain ⟨h0, hpay⟩ := g3 hroom
    refine ⟨p, E.tokens w.tk, ⟨hp, ?_⟩, D.signed, D.fits, ?_, ⟨d, hd'⟩, ?_, hfl.trans D.first, ?_, ?_, ?_⟩
    · exact (congrArg Presale.owner hbp :).trans D.presale.2
    · rw [hbv, hbm]; exact D.accounts
    · rw [completed_congr hbp, ← A.clock]; exact D.completed
    · rw [collectableFee_congr hbp]; exact h0
    · rw [collectableFee_congr hbp, hbm, hbv]; exact hpay
    · rw [Eff.run_flag (E := E) hp rfl rfl rfl rfl]
      rfl

theorem unsold_near (A : Alike s w w1) (W : WInv w1) {a : UnsoldAcc} (hs : s.Separate (.unsold a.presale))
    (D : Does w1 tx (.unsold a) w12) : ∃ E, Near (.unsold a.presale) w w1 w12 tx (.unsold a) E := by
  obtain ⟨p1, d1, k', D⟩ := D
  obtain ⟨p, hp, hbp, _, _, hfl⟩ := A.sale_of D.presale
  have hfl := hfl hs.1
  have hvault : p1.baseTokenVault.isVault = true := by
    rw [(W.core.sale _ _ D.presale).pinv.static.baseVault]; rfl
  have hbv : p.baseTokenVault = p1.baseTokenVault := (congrArg Presale.baseTokenVault hbp :)
  have hbm : p.baseMint = p1.baseMint := (congrArg Presale.baseMint hbp :)
  have hown : p.owner = p1.owner := (congrArg Presale.owner hbp :)
  have hact : p.unsoldTokenAction = p1.unsoldTokenAction := (congrArg Presale.unsoldTokenAction hbp :)
  have hsup : p.presaleSupply = p1.presaleSupply := (congrArg Presale.presaleSupply hbp :)
  have hsold := totalSold_congr hbp
  have hd : a.creatorBaseToken.isVault = false := by rw [D.accounts.2.2]; rfl
  obtain ⟨d, hd', hdm, hdo, _⟩ := A.tok_of D.account.1
  have key : ∃ net burnt, ∀ E : Eff, E.vault = p1.baseTokenVault → E.out = p1.presaleSupply - totalSold p1 →
      E.dst = a.creatorBaseToken → E.net = net → E.mint = p1.baseMint → E.burnt = burnt →
      k' = E.tokens w1.tk ∧ Room E w1 ∧ (Room E w →
        (p1.unsoldTokenAction = 1 → BurntOut w.tk p1.baseMint p1.baseTokenVault a.tokenProgram
          (p1.presaleSupply - totalSold p1) (E.tokens w.tk)) ∧
        (p1.unsoldTokenAction ≠ 1 → HooksRight w.tk .transferHookBase p1.baseMint a.remaining a.slices ∧
          PaidOut w.tk tx p1.baseMint p1.baseTokenVault a.creatorBaseToken a.tokenProgram
            (p1.presaleSupply - totalSold p1) (E.tokens w.tk))) := by
    by_cases hu : p1.unsoldTokenAction = 1
    · obtain ⟨m1, v1, hm1, hprog, hnat, hle, hv1, hf, hk⟩ := D.burn hu
      obtain ⟨m, hm, em⟩ := A.mint_of hm1
      obtain ⟨v, hv, _, _, hvf, _⟩ := A.tok_of hv1
      refine ⟨0, p1.presaleSupply - totalSold p1, fun E e1 e2 e3 e4 e5 e6 => ?_⟩
      refine ⟨?_, ⟨fun d hd2 => ?_, fun m hm2 => ?_⟩, fun hroom => ⟨fun _ => ⟨m, v, hm, ?_, ?_, ?_, hv, hvf.trans hf, ?_⟩,
        fun h => absurd hu h⟩⟩
      · rw [Eff.tokens_burnt (E := E) (by rw [e1]; exact hv1) (by rw [e5]; exact hm1) e4, e1, e2, e5, e6]; exact hk
      · rw [e4]
        have := W.core.amounts _ _ hd2
        simp only [u64Bound] at this
        omega
      · rw [e5, hm1] at hm2; cases hm2
        rw [e6]; exact hle
      · rw [em] at hprog; exact hprog
      · rw [em] at hnat; exact hnat
      · have := hroom.supply m (by rw [e5]; exact hm)
        rw [e6] at this; exact this
      · rw [Eff.tokens_burnt (E := E) (by rw [e1]; exact hv) (by rw [e5]; exact hm) e4, e1, e2, e5, e6]
    · obtain ⟨net, key⟩ := paid_near A hvault hd (D.refund hu).2
      refine ⟨net, 0, fun E e1 e2 e3 e4 e5 e6 => ?_⟩
      obtain ⟨g1, g2, g3⟩ := key E e1 e2 e3 e4 e6
      exact ⟨g1, g2, fun hroom => ⟨fun h => absurd h hu, fun _ => ⟨hooks_near A (D.refund hu).1, g3 hroom⟩⟩⟩
  obtain ⟨net, burnt, key⟩ := key
  let E : Eff := {
    sale := a.presale, idx := 0, claimed := 0, refunded := 0, closed := 0, raise := false, fee := false,
    unsold := true, key := a.presale, alt := some, due := dueAt w1 a.presale, time := w1.clock.toNat,
    vault := p1.baseTokenVault, out := p1.presaleSupply - totalSold p1, dst := a.creatorBaseToken, net := net,
    mint := p1.baseMint, burnt := burnt }
  obtain ⟨g1, g2, g3⟩ := key E rfl rfl rfl rfl rfl rfl
  refine ⟨E, ⟨hvault, hd, fun h => absurd h Bool.false_ne_true, fun h => absurd h Bool.false_ne_true, fun _ => rfl,
    Alt.same _ _ (fun j h => by cases h)⟩, ?_, rfl, rfl, g2, fun hroom => ?_⟩
  · rw [D.post, Eff.run_flag (E := E) D.presale rfl rfl rfl rfl, g1]
    rfl
  · obtain ⟨hb, hr⟩ := g3 hroom
    refine ⟨p, d, E.tokens w.tk, hp, D.fits, ?_, ⟨hd', ?_, ?_⟩, ?_, hfl.trans D.first, ?_, ?_, ?_, ?_⟩
    · rw [hbv, hbm, hown]; exact D.accounts
    · rw [hdo, hown]; exact D.account.2.1
    · rw [hdm, hbm]; exact D.account.2.2
    · rw [completed_congr hbp, ← A.clock]; exact D.completed
    · rw [hsold, hsup]; exact D.left
    · rw [hact, hbm, hbv, hsup, hsold]; exact hb
    · rw [hact, hbm, hbv, hsup, hsold]; exact hr
    · rw [Eff.run_flag (E := E) hp rfl rfl rfl rfl]
      rfl

/-- Every instruction of the settlement. -/
theorem settle_near (A : Alike s w w1) (W : WInv w1) {i : Ix} {t : Slot} (ht : slot i = some t) (hs : s.Separate t)
    (hd : ∀ d, payee i = some d → d.isVault = false) (D : Does w1 tx i w12) : ∃ E, Near t w w1 w12 tx i E := by
  cases i with
  | claim a => cases ht; exact claim_near A W hs (hd _ rfl) D
  | refund a => cases ht; exact refund_near A W hs (hd _ rfl) D
  | refresh a => cases ht; exact refresh_near A hs W D
  | closeEscrow a => cases ht; exact close_near A W hs D
  | creatorWithdraw a => cases ht; exact raise_near A W hs (hd _ rfl) D
  | collectFee a => cases ht; exact fee_near A W hs (hd _ rfl) D
  | unsold a => cases ht; exact unsold_near A W hs D
  | _ => cases ht

end near

/-! ## Changing places -/

theorem Alike.refl (s : Slot) (w : World) : Alike s w w :=
  ⟨rfl, fun _ => rfl, fun _ _ => rfl, fun _ _ => rfl, fun _ _ => rfl, fun _ _ => rfl, fun _ _ _ => rfl, fun _ _ _ => rfl,
    fun _ => rfl, fun _ => rfl⟩

theorem Spec.Slot.Separate.symm {s t : Slot} (h : s.Separate t) : t.Separate s := ⟨h.1.symm, h.2.2, h.2.1⟩

theorem room_before {s t : Slot} {E F : Eff} {w : World} (hE : Fitting s E) (hF : Fitting t F) (h : Room F (E.run w)) :
    Room F w := by
  constructor
  · intro d hd
    have hx : F.dst ≠ E.vault := (vault_ne hE.vault hF.dst).symm
    have := h.amount (E.acct F.dst d) (by show (w.tk.toks F.dst).map _ = _; rw [hd]; rfl)
    unfold Eff.acct at this
    simp only [if_neg hx, Nat.sub_zero] at this
    omega
  · intro m hm
    have := h.supply (E.coin F.mint m) (by show (w.tk.mints F.mint).map _ = _; rw [hm]; rfl)
    unfold Eff.coin at this
    simp only at this
    omega

theorem room_after {s : Slot} {E F : Eff} {w : World} (hE : Fitting s E) (h : Room F (E.run w))
    (h0 : Room E w) (W : WInv (E.run (F.run w))) : Room E (F.run w) := by
  constructor
  · intro d hd
    have hx : E.dst ≠ E.vault := (vault_ne hE.vault hE.dst).symm
    have := W.core.amounts E.dst (E.acct E.dst d) (by show ((F.run w).tk.toks E.dst).map _ = _; rw [hd]; rfl)
    unfold Eff.acct at this
    simp only [if_neg hx, Nat.sub_zero, if_true, u64Bound] at this
    omega
  · intro m hm
    have hm' : (w.tk.mints E.mint).map (F.coin E.mint) = some m := hm
    cases hw : w.tk.mints E.mint with
    | none => rw [hw] at hm'; cases hm'
    | some m0 =>
      rw [hw] at hm'
      simp only [Option.map_some, Option.some.injEq] at hm'
      subst hm'
      have h1 := h0.supply m0 hw
      unfold Eff.coin
      simp only
      split
      · next e =>
        have h2 := h.supply (E.coin F.mint m0) (by show (w.tk.mints F.mint).map _ = _; rw [← e, hw]; rfl)
        unfold Eff.coin at h2
        simp only [if_pos e.symm] at h2
        omega
      · omega

/-- Two neighbouring instructions of the settlement with separate slots change places. -/
theorem settle_swap {w w1 w2 : World} (R : Reachable w) {tx ty : Tx} {x y : Ix} {rc rc' : Receipt}
    (hx : step w (.ix tx x) = .ok (w1, rc)) (hy : step w1 (.ix ty y) = .ok (w2, rc')) (hi : Independent x y)
    (dx : ∀ d, payee x = some d → d.isVault = false) (dy : ∀ d, payee y = some d → d.isVault = false) :
    ∃ w3 rc1 rc2, step w (.ix ty y) = .ok (w3, rc1) ∧ step w3 (.ix tx x) = .ok (w2, rc2) := by
  obtain ⟨s, t, hs, ht, hst⟩ := hi
  have R1 := R.step hx
  have R2 := R1.step hy
  have Dx := (C72_does_iff R tx x w1).1 ⟨_, hx⟩
  have Dy := (C72_does_iff R1 ty y w2).1 ⟨_, hy⟩
  obtain ⟨E0, N0⟩ := settle_near (Alike.refl t w) R.winv hs hst.symm dx Dx
  have A : Alike s w w1 := by rw [N0.run]; exact Eff.alike N0.fits w
  obtain ⟨F, N⟩ := settle_near A R1.winv ht hst dy Dy
  have hF := N.fits
  have roomF : Room F w := room_before N0.fits hF (by rw [← N0.run]; exact N.room)
  have Dy' := N.does roomF
  have A' : Alike t (F.run w) w := (Eff.alike hF w).symm
  obtain ⟨E, M⟩ := settle_near A' R.winv hs hst.symm dx Dx
  have hE := M.fits
  have swap : E.run (F.run w) = F.run (E.run w) := by
    refine Eff.run_swap hE hF hst (fun hk hc => ?_) ?_ w
    · rw [M.due, N.due, A.dueAt_eq (hc _), hk]
    · rw [M.time, N.time, A.clock]
  have e2 : w2 = E.run (F.run w) := by rw [swap, ← M.run]; exact N.run
  have roomE : Room E (F.run w) :=
    room_after hE (by rw [← M.run]; exact N.room) M.room (by rw [← e2]; exact R2.winv)
  have Dx' := M.does roomE
  rw [← e2] at Dx'
  obtain ⟨rc1, h1⟩ := (C72_does_iff R ty y _).2 Dy'
  obtain ⟨rc2, h2⟩ := (C72_does_iff (R.step h1) tx x w2).2 Dx'
  exact ⟨_, rc1, rc2, h1, h2⟩

theorem Spec.Independent.symm {i j : Ix} (h : Independent i j) : Independent j i := by
  obtain ⟨s, t, hs, ht, h⟩ := h
  exact ⟨t, s, ht, hs, h.symm⟩

theorem done_perm {l l' : List (Tx × Ix)} (hperm : l.Perm l') :
    ∀ {w w' : World}, Reachable w → Done w l w' → l.Pairwise (fun y z => Independent y.2 z.2) →
      (∀ z ∈ l, ∀ d, payee z.2 = some d → d.isVault = false) → Done w l' w' := by
  induction hperm with
  | nil => intro w w' _ h _ _; exact h
  | cons z _ ih =>
    intro w w' R h hn hd
    cases h with
    | cons succeeds rest =>
      exact .cons succeeds (ih (R.step succeeds) rest (List.pairwise_cons.1 hn).2
        (fun z hz => hd z (List.mem_cons_of_mem _ hz)))
  | swap z1 z2 l =>
    intro w w' R h hn hd
    cases h with
    | cons succeeds1 rest1 =>
      cases rest1 with
      | cons succeeds2 rest2 =>
        obtain ⟨w3, rc1, rc2, h1, h2⟩ := settle_swap R succeeds1 succeeds2
          ((List.pairwise_cons.1 hn).1 _ List.mem_cons_self) (hd _ List.mem_cons_self)
          (hd _ (List.mem_cons_of_mem _ List.mem_cons_self))
        exact .cons h1 (.cons h2 rest2)
  | trans h1 _ ih1 ih2 =>
    intro w w' R h hn hd
    exact ih2 R (ih1 R h hn hd) ((h1.pairwise_iff Spec.Independent.symm).1 hn) (fun z hz => hd z (h1.mem_iff.2 hz))

end Verif
