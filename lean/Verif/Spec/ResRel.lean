import Verif.Model.Std

/-!
# Specification: two calls have corresponding outcomes
-/

namespace Verif.Spec

/-- Both calls succeed with related results, or both fail with the same error, or both panic. -/
def ResRel {α β : Type} (R : α → β → Prop) : Res α → Res β → Prop
  | .ok a, .ok b => R a b
  | .err e, .err e' => e = e'
  | .panic, .panic => True
  | _, _ => False

end Verif.Spec
