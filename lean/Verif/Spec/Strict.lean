import Verif.Spec.Decode

/-
Specification for C87: what the options of a `ParseContext` add to what is read without restrictions.
-/

namespace JsonStruct

/-- The context allows everything and keeps the names: `allow_missing_members`, `allow_unasigned_required_members` and
`track_member_assignement_state` are all set. -/
def Ctx.Permits (c : Ctx) : Prop := c.allowMissing = true ∧ c.allowUnassigned = true ∧ c.track = true

/-- The same context with other options. -/
def Ctx.withOpts (p : POpts) (c : Ctx) : Ctx :=
  { c with
    allowMissing := p.allowMissing
    allowUnassigned := p.allowUnassigned
    track := p.track }

/-- Something was found between `c` and `d` that the options do not allow: members of objects that the structs do not have, or required members
of structs without a value. -/
def Offends (p : POpts) (c d : Ctx) : Prop :=
  (p.allowMissing = false ∧ d.missing ≠ c.missing) ∨ (p.allowUnassigned = false ∧ d.unassigned ≠ c.unassigned)

/-- The errors for it. (`UnknownPropertyMember` stands for `MissingPropertyMember` in a member of a struct.) -/
def StrictErr (p : POpts) (e : Err) : Prop :=
  (p.allowMissing = false ∧ (e = .missingPropertyMember ∨ e = .unknownPropertyMember)) ∨
  (p.allowUnassigned = false ∧ e = .unassignedRequiredMember)

/-- The context `d` as it is if the options were `p` since it was `c`: the names found since are there if they are to be tracked. -/
def Ctx.since (p : POpts) (c d : Ctx) : Ctx :=
  { d.withOpts p with
    missing := if p.track then d.missing else c.missing
    unassigned := if p.track then d.unassigned else c.unassigned }

end JsonStruct
