import Verif.Model.Register

/-! # Specification vocabulary for the method registry -/

namespace Laplax.Spec
open Laplax

variable {F : Type}

/-- All six tables know the same methods. -/
def Consistent (t : Tables F) : Prop := ∀ s s' n, (t s n).isSome = (t s' n).isSome

end Laplax.Spec
