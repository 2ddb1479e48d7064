import Verif.Model.Extensions
/-!
# What required memos and the CPI guard should mean for the program's users
-/

namespace Verif.Spec

/-- The token account an instruction spends from on behalf of the user who signs, and that user. -/
def spends : Ix → Option (Addr × Addr)
  | .initPresale a => some (a.payerPresaleToken, a.payer)
  | .deposit a => some (a.payerQuoteToken, a.payer)
  | _ => none

/-- There is a Token-2022 account at `a`. -/
def Extended (w : World) (a : Addr) : Prop :=
  ∃ t m, w.tk.toks a = some t ∧ w.tk.mints t.mint = some m ∧ m.program = .splToken2022

/-- The account at `a` accepts tokens only after a memo. -/
def AsksMemo (x : XWorld) (a : Addr) : Prop := Extended x.w a ∧ x.memo a = true

/-- The instruction spends from an account whose CPI guard is on, and the spender is not its delegate. -/
def Guarded (x : XWorld) (i : Ix) : Prop :=
  ∃ src who, spends i = some (src, who) ∧ Extended x.w src ∧ x.guard src = true ∧
    ∀ t n, x.w.tk.toks src = some t → t.delegate ≠ some (who, n)

/-- The calls are the token operations in order, with the memo `text` directly before each transfer to an account
that asks for memos, and no other memo. -/
inductive Announced (x : XWorld) (text : String) : List Cpi → List XCall → Prop where
  | nil : Announced x text [] []
  | burn {mint src n cpis calls} : Announced x text cpis calls →
      Announced x text (.burn mint src n :: cpis) (.token (.burn mint src n) :: calls)
  | plain {mint src dst who n fee cpis calls} : ¬ AsksMemo x dst → Announced x text cpis calls →
      Announced x text (.transfer mint src dst who n fee :: cpis)
        (.token (.transfer mint src dst who n fee) :: calls)
  | memo {mint src dst who n fee cpis calls} : AsksMemo x dst → Announced x text cpis calls →
      Announced x text (.transfer mint src dst who n fee :: cpis)
        (.memo text :: .token (.transfer mint src dst who n fee) :: calls)

end Verif.Spec
