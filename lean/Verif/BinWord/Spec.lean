import Verif.BinWord.Model
import Verif.Seq.Spec
/-!
# Specification of binary words
-/
namespace Helper.BinWord

/-- Lexicographic order: a proper prefix, or 0 against 1 at the first difference. -/
def LexLt (w v : Word) : Prop :=
  (∃ s, s ≠ [] ∧ v = w ++ s) ∨ (∃ p s t, w = p ++ false :: s ∧ v = p ++ true :: t)

/-- Text of a word: its bits. -/
def bitsText (w : Word) : List Char := w.map fun b => if b then '1' else '0'

/-- Text of a word, `e` if it is empty. -/
def wordText (w : Word) : List Char := if w = [] then ['e'] else bitsText w

/-- `0` or `1`. -/
def IsBit (c : Char) : Prop := c = '0' ∨ c = '1'

end Helper.BinWord
