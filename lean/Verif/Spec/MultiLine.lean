import Verif.Spec.Chunks
/-! Specification: assignments over several lines (C80). -/
namespace Oelint.Spec

/-- the text takes more than one line: a newline is followed by something -/
def ManyLines (t : Str) : Prop := ∃ a b, t = a ++ '\n' :: b ∧ b ≠ []

/-- every continued line ends in a backslash directly followed by the newline -/
def PlainContinuations (t : Str) : Prop :=
  ∀ a ws b, t = a ++ '\\' :: (ws ++ '\n' :: b) → (∀ c ∈ ws, reSpace c = true ∧ c ≠ '\n') → ws = []

end Oelint.Spec
