import Verif.Model.TaskLinkObj

/-!
# Specification: the setting in force after a history of calls
-/

namespace Verif.Spec
open Verif.Model

/-- `a` is what the last call with a setting (as read by `f`) has set. -/
def Latest {α : Type*} (f : TaskLinkOp → Option α) (ops : List TaskLinkOp) (a : α) : Prop :=
  ∃ pre op post, ops = pre ++ op :: post ∧ f op = some a ∧ ∀ o ∈ post, f o = none

/-- No call has made the setting. -/
def NeverSet {α : Type*} (f : TaskLinkOp → Option α) (ops : List TaskLinkOp) : Prop := ∀ o ∈ ops, f o = none

/-- Time window of a position trajectory call. -/
def posCall : TaskLinkOp → Option ((ℝ × ℝ) × PosGoal)
  | .quintic t0 tf g => some ((t0, tf), g)
  | _ => none

def rotCall : TaskLinkOp → Option ((ℝ × ℝ) × RotGoal)
  | .rotation t0 tf g => some ((t0, tf), g)
  | _ => none

/-- Time window of any trajectory call. -/
def anyWindow : TaskLinkOp → Option (ℝ × ℝ)
  | .quintic t0 tf _ => some (t0, tf)
  | .rotation t0 tf _ => some (t0, tf)
  | _ => none

def gainCall : TaskLinkOp → Option Gains
  | .gain g => some g
  | _ => none

def limitCall : TaskLinkOp → Option ((Fin 6 → ℝ) × (Fin 6 → ℝ))
  | .regulate p d => some (p, d)
  | _ => none

end Verif.Spec
