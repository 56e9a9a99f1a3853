import Verif.Prelude
import Mathlib.GroupTheory.Perm.Sign

/-!
# Vocabulary for the properties of keys and walkers

Nothing here mentions the model: rearrangements of triples and quadruples, with
Mathlib's sign of a permutation.
-/

namespace Tet.Spec

/-- The quadruple read as a function of the position. -/
def quad {α : Type} : α × α × α × α → Fin 4 → α := fun (a, b, c, d) => ![a, b, c, d]

/-- `y` lists the entries of `x` in an order obtained by an even permutation. -/
def EvenRearr {α : Type} (x y : Fin 4 → α) : Prop :=
  ∃ σ : Equiv.Perm (Fin 4), Equiv.Perm.sign σ = 1 ∧ ∀ j, y j = x (σ j)

/-- `y` is a cyclic rotation of the triple `x`. -/
def Rotation {α : Type} (x y : α × α × α) : Prop :=
  y = x ∨ y = (x.2.1, x.2.2, x.1) ∨ y = (x.2.2, x.1, x.2.1)

/-- The entries of the triple as a list. -/
def list3 {α : Type} (x : α × α × α) : List α := [x.1, x.2.1, x.2.2]

/-- The entries of the pair as a list. -/
def list2 {α : Type} (x : α × α) : List α := [x.1, x.2]

end Tet.Spec
