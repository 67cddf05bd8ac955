import Verif.Model.HeapProxy
import Verif.Spec.TableCopy

/-
Specification vocabulary: variables in programs over tables.
-/

namespace Astro.Spec

variable {Φ : Family}

/-- The statement makes variable `p` stand for another element. -/
def Retakes (p : Nat) : HPOp Φ → Prop
  | .take k _ _ _ _ => k = p
  | .copy k _ => k = p
  | _ => False

/-- The statement takes table `i` apart: it is moved from, assigned to or destroyed. -/
def Displaces (i : Nat) : HPOp Φ → Prop
  | .plain (.move k) => k = i
  | .plain (.copyOver k _) => k = i
  | .plain (.moveOver k j) => k = i ∨ j = i
  | .plain (.destroy k) => k = i
  | _ => False

instance (i : Nat) : (op : HPOp Φ) → Decidable (Displaces i op)
  | .plain (.move k) => inferInstanceAs (Decidable (k = i))
  | .plain (.copyOver k _) => inferInstanceAs (Decidable (k = i))
  | .plain (.moveOver k j) => inferInstanceAs (Decidable (k = i ∨ j = i))
  | .plain (.destroy k) => inferInstanceAs (Decidable (k = i))
  | .plain (.create _ _) | .plain (.copy _) | .plain (.setRows _ _) | .plain (.replace _ _ _) | .plain (.read _ _ _ _) | .plain (.update _ _ _ _ _)
  | .plain (.assign _ _ _ _ _) | .plain (.iterate _ _ _) | .plain (.rows _) | .take _ _ _ _ _ | .get _ | .put _ _ _ | .copy _ _ => inferInstanceAs (Decidable False)

/-- What a variable stands for: table, column, type and row. -/
structure Place (Φ : Family) where
  table : Nat
  name : Str
  tag : Φ.Tag
  row : Nat

/-- The program without variables: taking an element is reading it, assigning to a variable is update_value of what it stands for, and the rest about variables is left out.
There is none if a variable is assigned to after its table was taken apart, or with another type. -/
def withoutVariables (env : Nat → Option (Place Φ)) : List (HPOp Φ) → Option (List (HOp Φ))
  | [] => some []
  | .plain op :: ops => (withoutVariables (fun k => (env k).filter fun pl => ¬ Displaces pl.table (.plain op)) ops).map (op :: ·)
  | .take p i name t row :: ops => (withoutVariables (fun k => if k = p then some ⟨i, name, t, row⟩ else env k) ops).map (.read i name t row :: ·)
  | .get _ :: ops => withoutVariables env ops
  | .put p t x :: ops =>
    match env p with
    | none => none
    | some pl => if pl.tag = t then (withoutVariables env ops).map (.update pl.table pl.name t pl.row x :: ·) else none
  | .copy p q :: ops => withoutVariables (fun k => if k = p then env q else env k) ops

end Astro.Spec
