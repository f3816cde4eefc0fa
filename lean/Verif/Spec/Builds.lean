import Verif.Model.Base

/-! # What it means for two builds of the library to agree -/

namespace Cesride.Spec

/-- Two builds agree on one call: they give the same answer (value, error or panic), or the one that was compiled with overflow
checks (the other was not) panics. In particular two builds of the same profile give the same answer. -/
def BuildsAgree {α : Type} (E E' : Env) (x y : Res α) : Prop :=
  x = y ∨ (E.overflowChecks = true ∧ E'.overflowChecks = false ∧ x = .panic) ∨
    (E.overflowChecks = false ∧ E'.overflowChecks = true ∧ y = .panic)

end Cesride.Spec
