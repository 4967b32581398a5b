import Verif.Spec.Broadcast

/-! # Specification: a satellite that sends the same data all the time -/

namespace Verif

/-- A satellite that sends the same data all the time: `bits`, of which `part f` is the field `f`. -/
structure SendsData (hist : List Call) (kd : NavKind) (v : Svn) (bits : List Bool) (part : NavField → List Bool) : Prop where
  parts : bits = kd.fields.flatMap part
  same : ∀ c ∈ inavsOf hist, c.svn = v → ∀ f ∈ kd.fields, kd.carries c f = true → f.bits c = part f

end Verif
