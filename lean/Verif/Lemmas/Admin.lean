import Verif.Lemmas.Origin
import Mathlib.Data.List.Induction
/-!
# Steps and the administrative accounts
-/

namespace Verif
open Spec

/-- What one step does to the administrative accounts. -/
inductive AdminEffect (w : World) (op : Op) (w' : World) (rc : Receipt) : Prop
  | none (roots : w'.merkleRoots = w.merkleRoots) (ops : w'.operators = w.operators)
      (metas : w'.metadata = w.metadata) (fixed : w'.fixedArgs = w.fixedArgs)
      (env : w'.env = w.env) (clock : (∀ n, op ≠ .tick n) → w'.clock = w.clock)
  | fixedNew {tx : Tx} {x : InitFixedArgsAcc} (is : op = .ix tx (.initFixedArgs x))
      (facts : InitFixedArgsFacts w tx x w' rc)
  | fixedClose {tx : Tx} {x : CloseFixedArgsAcc} {c : FixedPriceArgs} (is : op = .ix tx (.closeFixedArgs x))
      (facts : CloseFixedArgsFacts w tx x w' rc c)
  | rootNew {tx : Tx} {x : CreateMerkleAcc} {p : Presale} (is : op = .ix tx (.createMerkle x))
      (facts : CreateMerkleFacts w tx x w' rc p)
  | rootClose {tx : Tx} {x : CloseMerkleAcc} {p : Presale} {c : MerkleRootConfig}
      (is : op = .ix tx (.closeMerkle x)) (facts : CloseMerkleFacts w tx x w' rc p c)
  | operatorNew {tx : Tx} {x : CreateOperatorAcc} (is : op = .ix tx (.createOperator x))
      (facts : CreateOperatorFacts w tx x w' rc)
  | operatorRevoke {tx : Tx} {x : RevokeOperatorAcc} {o : Operator} (is : op = .ix tx (.revokeOperator x))
      (facts : RevokeOperatorFacts w tx x w' rc o)
  | metaNew {tx : Tx} {x : CreateMetadataAcc} {p : Presale} (is : op = .ix tx (.createMetadata x))
      (facts : CreateMetadataFacts w tx x w' rc p)
  | metaClose {tx : Tx} {x : CloseMetadataAcc} {p : Presale} {m : ServerMetadata}
      (is : op = .ix tx (.closeMetadata x)) (facts : CloseMetadataFacts w tx x w' rc p m)

theorem step_admin {w w' : World} {op : Op} {rc : Receipt} (h : step w op = .ok (w', rc)) :
    AdminEffect w op w' rc := by
  cases op with
  | tick s => cases h; exact .none rfl rfl rfl rfl rfl fun h => absurd rfl (h s)
  | setTok a t =>
    simp only [step, bind_eq_ok, require_eq_ok, pure_eq_ok, exists_const, Prod.mk.injEq] at h
    obtain ⟨_, _, rfl, _⟩ := h
    exact .none rfl rfl rfl rfl rfl fun _ => rfl
  | donate a t =>
    simp only [step, bind_eq_ok, require_eq_ok, load_eq_ok, pure_eq_ok, exists_const, Prod.mk.injEq] at h
    obtain ⟨_, _, _, rfl, _⟩ := h
    exact .none rfl rfl rfl rfl rfl fun _ => rfl
  | freezeVault a t =>
    simp only [step, bind_eq_ok, load_eq_ok, pure_eq_ok, Prod.mk.injEq] at h
    obtain ⟨_, _, rfl, _⟩ := h
    exact .none rfl rfl rfl rfl rfl fun _ => rfl
  | setMint a t =>
    simp only [step, bind_eq_ok, require_eq_ok, pure_eq_ok, exists_const, Prod.mk.injEq] at h
    obtain ⟨_, _, rfl, _⟩ := h
    exact .none rfl rfl rfl rfl rfl fun _ => rfl
  | ix tx i =>
    cases i with
    | initFixedArgs x => exact .fixedNew rfl (handleInitFixedArgs_iff.1 h)
    | closeFixedArgs x =>
      obtain ⟨c, F⟩ := handleCloseFixedArgs_iff.1 h
      exact .fixedClose rfl F
    | createMerkle x =>
      obtain ⟨c, F⟩ := handleCreateMerkle_iff.1 h
      exact .rootNew rfl F
    | closeMerkle x =>
      obtain ⟨p, c, F⟩ := handleCloseMerkle_iff.1 h
      exact .rootClose rfl F
    | createOperator x => exact .operatorNew rfl (handleCreateOperator_iff.1 h)
    | revokeOperator x =>
      obtain ⟨c, F⟩ := handleRevokeOperator_iff.1 h
      exact .operatorRevoke rfl F
    | createMetadata x =>
      obtain ⟨p, F⟩ := handleCreateMetadata_iff.1 h
      exact .metaNew rfl F
    | closeMetadata x =>
      obtain ⟨p, c, F⟩ := handleCloseMetadata_iff.1 h
      exact .metaClose rfl F
    | initPresale x =>
      obtain ⟨bm, qm, p, rem, supply, inc, hooks, rest, tk, cpi, F⟩ := handleInitPresale_iff.1 h
      rw [F.post]; exact .none rfl rfl rfl rfl rfl fun _ => rfl
    | createEscrow x =>
      obtain ⟨p, r, p', _, F⟩ := handleCreateEscrow_iff.1 h
      rw [F.post]; exact .none rfl rfl rfl rfl rfl fun _ => rfl
    | createEscrowCreator x =>
      obtain ⟨p, o, r, p', _, F⟩ := handleCreateEscrowCreator_iff.1 h
      rw [F.post]; exact .none rfl rfl rfl rfl rfl fun _ => rfl
    | createEscrowMerkle x =>
      obtain ⟨p, o, r, p', _, F⟩ := handleCreateEscrowMerkle_iff.1 h
      rw [F.post]; exact .none rfl rfl rfl rfl rfl fun _ => rfl
    | deposit x =>
      obtain ⟨p, m, e, d, inc, hooks, rest, tk, cpi, F⟩ := handleDeposit_iff.1 h
      rw [F.post]; exact .none rfl rfl rfl rfl rfl fun _ => rfl
    | withdraw x =>
      obtain ⟨p, m, e, p', e', n, hooks, rest, tk, cpi, ex, F⟩ := handleWithdraw_iff.1 h
      rw [F.post]; exact .none rfl rfl rfl rfl rfl fun _ => rfl
    | claim x =>
      obtain ⟨p, m, e, hd, e1, ex, F⟩ := handleClaim_iff.1 h
      rcases F.out with ⟨_, p', e', hooks, rest, tk, cpi, _, _, _, h1, _⟩ | ⟨_, h1, _⟩
      all_goals rw [h1]; exact .none rfl rfl rfl rfl rfl fun _ => rfl
    | refund x =>
      obtain ⟨p, m, e, q, p', hooks, rest, ex, F⟩ := handleRefund_iff.1 h
      rcases F.out with ⟨_, tk, cpi, _, h1, _⟩ | ⟨_, h1, _⟩
      all_goals rw [h1]; exact .none rfl rfl rfl rfl rfl fun _ => rfl
    | closeEscrow x =>
      obtain ⟨p, e, p', F⟩ := handleCloseEscrow_iff.1 h
      rw [F.post]; exact .none rfl rfl rfl rfl rfl fun _ => rfl
    | refresh x =>
      obtain ⟨p, e, e', F⟩ := (handleRefresh_iff (tx := tx)).1 h
      rw [F.post]; exact .none rfl rfl rfl rfl rfl fun _ => rfl
    | unsold x =>
      obtain ⟨p, c, hd, n, tk, cpi, F⟩ := handleUnsold_iff.1 h
      rw [F.post]; exact .none rfl rfl rfl rfl rfl fun _ => rfl
    | creatorWithdraw x =>
      obtain ⟨p, c, hooks, rest, tk, cpi, m, ex, F⟩ := handleCreatorWithdraw_iff.1 h
      rw [F.post]; exact .none rfl rfl rfl rfl rfl fun _ => rfl
    | collectFee x =>
      obtain ⟨p, m, fee, ex, F⟩ := handleCollectFee_iff.1 h
      rcases F.out with ⟨_, hooks, rest, tk, cpi, _, _, h1, _⟩ | ⟨_, h1, _⟩
      all_goals rw [h1]; exact .none rfl rfl rfl rfl rfl fun _ => rfl

theorem step_env {w w' : World} {op : Op} {rc : Receipt} (h : step w op = .ok (w', rc)) : w'.env = w.env := by
  cases step_admin h with
  | none _ _ _ _ h _ => exact h
  | fixedNew _ F => rw [F.post]
  | fixedClose _ F => rw [F.post]
  | rootNew _ F => rw [F.post]
  | rootClose _ F => rw [F.post]
  | operatorNew _ F => rw [F.post]
  | operatorRevoke _ F => rw [F.post]
  | metaNew _ F => rw [F.post]
  | metaClose _ F => rw [F.post]

theorem step_clock {w w' : World} {op : Op} {rc : Receipt} (h : step w op = .ok (w', rc))
    (hk : ∀ n, op ≠ .tick n) : w'.clock = w.clock := by
  cases step_admin h with
  | none _ _ _ _ _ h => exact h hk
  | fixedNew _ F => rw [F.post]
  | fixedClose _ F => rw [F.post]
  | rootNew _ F => rw [F.post]
  | rootClose _ F => rw [F.post]
  | operatorNew _ F => rw [F.post]
  | operatorRevoke _ F => rw [F.post]
  | metaNew _ F => rw [F.post]
  | metaClose _ F => rw [F.post]

theorem run_env (w : World) (ops : List Op) : (run w ops).env = w.env := by
  induction ops using List.reverseRecOn with
  | nil => rfl
  | append_singleton ops op ih =>
    rw [run_snoc]
    rcases apply_cases (run w ops) op with h | ⟨rc, h⟩
    · rw [h]; exact ih
    · rw [step_env h]; exact ih

/-- What was not so at first and is so now became so at some point, and stayed so ever since. -/
theorem became {w0 : World} {P : World → Prop} (h0 : ¬ P w0) (ops : List Op) (h1 : P (run w0 ops)) :
    ∃ pre op post rc, ops = pre ++ op :: post ∧ step (run w0 pre) op = .ok (run w0 (pre ++ [op]), rc) ∧
      ¬ P (run w0 pre) ∧ ∀ mid rest, post = mid ++ rest → P (run w0 (pre ++ op :: mid)) := by
  induction ops using List.reverseRecOn with
  | nil => exact (h0 h1).elim
  | append_singleton ops op ih =>
    by_cases h : P (run w0 ops)
    · obtain ⟨pre, op', post, rc, g1, g2, g3, g4⟩ := ih h
      refine ⟨pre, op', post ++ [op], rc, by rw [g1]; simp, g2, g3, ?_⟩
      intro mid rest hmr
      rcases List.eq_nil_or_concat rest with rfl | ⟨rest', x, rfl⟩
      · rw [List.append_nil] at hmr
        subst hmr
        rw [show pre ++ op' :: (post ++ [op]) = ops ++ [op] by rw [g1]; simp]
        exact h1
      · apply g4 mid rest'
        rw [List.concat_eq_append, ← List.append_assoc] at hmr
        exact (List.append_inj' hmr rfl).1
    · rcases apply_cases (run w0 ops) op with hc | ⟨rc, hc⟩
      · rw [run_snoc, hc] at h1; exact (h h1).elim
      · refine ⟨ops, op, [], rc, rfl, by rw [run_snoc]; exact hc, h, ?_⟩
        intro mid rest hmr
        obtain ⟨rfl, rfl⟩ := List.append_eq_nil_iff.1 hmr.symm
        exact h1

end Verif
