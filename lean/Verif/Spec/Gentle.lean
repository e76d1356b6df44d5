import Verif.Spec.Decimal

/-
Texts that can be read as floating point numbers without undefined operations.
-/

namespace JsonStruct

/-- The digits of a text. -/
def digitsOf (s : Bytes) : Bytes := s.filter fun c => decide (0x30 ≤ c) && decide (c ≤ 0x39)

/-- There is no e or E, and there are less than 20 digits or one of the first 19 is not 0. -/
def PlainText (s : Bytes) : Prop :=
  (∀ c ∈ s, c ≠ 0x65 ∧ c ≠ 0x45) ∧ ((digitsOf s).length < 20 ∨ ∃ c ∈ (digitsOf s).take 19, c ≠ 0x30)

/-- Behind white space and at most one minus comes, if anything, neither 0 nor a point. -/
def LedText (s : Bytes) : Prop :=
  ∀ space sign c rest, (∀ d ∈ space, d = 0x20 ∨ 9 ≤ d ∧ d ≤ 13) → sign = [] ∨ sign = b!"-" → s = space ++ sign ++ c :: rest →
    c ≠ 0x30 ∧ c ≠ 0x2e

/-- Plain or led. -/
def GentleText (s : Bytes) : Prop := PlainText s ∨ LedText s

end JsonStruct
