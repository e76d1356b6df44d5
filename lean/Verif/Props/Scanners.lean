import Verif.Lemmas.Scan

/-
C10: what the vectorised scanning functions find, each for itself (`findAsciiEndAVX2` is called by nothing in the library).
-/

namespace JsonStruct

/-- The number of leading bytes that are among those of `set`. -/
def leading (set : Bytes) (s : Bytes) : Nat := s.findIdx fun c => !set.contains c

/-- The bytes of words without quotes. -/
def wordSet : Bytes := b!"ABCDEFGHIJKLMNOPQRSTUVWXYZabcdefghijklmnopqrstuvwxyz0123456789_^`/.-"

/-- The bytes of numbers. -/
def numberSet : Bytes := b!"0123456789.eE+-"

/-- White space. -/
def spaceSet : Bytes := [32, 9, 10, 13]

theorem isAsciiV_set : (fun c => !isAsciiV c) = fun c => !wordSet.contains c := by
  funext c
  exact forall_byte (p := fun c => (!isAsciiV c) = !wordSet.contains c) (by decide +kernel) c

theorem isNumV_set : (fun c => !isNumV c) = fun c => !numberSet.contains c := by
  funext c
  exact forall_byte (p := fun c => (!isNumV c) = !numberSet.contains c) (by decide +kernel) c

theorem isWsV_set : (fun c => !isWsV c) = fun c => !spaceSet.contains c := by
  funext c
  exact forall_byte (p := fun c => (!isWsV c) = !spaceSet.contains c) (by decide +kernel) c

/-- **C10** (the scanning functions) For all bytes, however many: the functions for SSE2, SSE4.2, AVX2 and NEON that look for the end of a
word, of a number and of white space return the number of leading bytes of that kind. -/
theorem C10_scanners (s : Bytes) :
    (findAsciiEndSIMD s = leading wordSet s ∧ findAsciiEndAVX2 s = leading wordSet s ∧ findAsciiEndNEON s = leading wordSet s) ∧
    (findNumberEndSSE2 s = leading numberSet s ∧ findNumberEndSSE42 s = leading numberSet s ∧ findNumberEndNEON s = leading numberSet s) ∧
    (skipWhitespaceSIMD s = leading spaceSet s ∧ skipWhitespaceAVX2 s = leading spaceSet s ∧ skipWhitespaceNEON s = leading spaceSet s) := by
  refine ⟨⟨?_, ?_, ?_⟩, ⟨?_, ?_, ?_⟩, ⟨?_, ?_, ?_⟩⟩
  · rw [findAsciiEndSIMD, scanTo_eq (by decide) (firstClear_finds isAsciiV 16 (by decide)), isAsciiV_set]; rfl
  · rw [findAsciiEndAVX2, scanTo_eq (by decide) (firstClear_finds isAsciiV 32 (by decide)), isAsciiV_set]; rfl
  · rw [findAsciiEndNEON, scanTo_eq (by decide) (firstNeon_finds _), isAsciiV_set]; rfl
  · rw [findNumberEndSSE2, isNumV_set]; rfl
  · obtain ⟨ha, hb, _⟩ := blockScan_spec (by decide) cmpistri_finds s.length s (Nat.le_refl _)
    rw [leading, ← isNumV_set, findNumberEndSSE42]
    exact (findIdx_drop_of_false _ s _ ha hb).symm
  · rw [findNumberEndNEON, scanTo_eq (by decide) (firstNeon_finds _), isNumV_set]; rfl
  · rw [skipWhitespaceSIMD, scanTo_eq (by decide) (firstClear_finds isWsV 16 (by decide)), isWsV_set]; rfl
  · rw [skipWhitespaceAVX2, scanTo_eq (by decide) (firstClear_finds isWsV 32 (by decide)), isWsV_set]; rfl
  · rw [skipWhitespaceNEON, scanTo_eq (by decide) (firstNeon_finds _), isWsV_set]; rfl

/-- A text of 45 bytes, the word ends in the second block. -/
example : leading wordSet b!"abcdefghijklmnopqrstuvwxyz0123456789_^`/.-A: 1" = 43 ∧ leading numberSet b!"12345678901234567.5e-1]" = 22 := by decide +kernel

end JsonStruct
