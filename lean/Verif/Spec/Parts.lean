import Verif.Spec.Grammar

/-!
# Specification of files that are put together from parts
-/

namespace Kws.Spec

/-- A text that ends with a line feed, or has no characters. -/
def EndsLine (t : Str) : Prop := t = [] ∨ ∃ s, t = s ++ ['\n']

/-- The number of line feeds in a text. -/
def lineFeeds (t : Str) : ℕ := t.count '\n'

/-- An outcome of reading a text that comes `n` lines after the beginning of the file. -/
def laterBy (n : ℕ) : ReadStatus → ReadStatus
  | .badLine k => .badLine (n + k)
  | st => st

/-- Reading one file after the other with the same mapper, up to the first one that cannot be read;
`n` lines have been read already. -/
def readFiles {μ E : Type} (read : μ → Str → μ × List E × ReadStatus) (n : ℕ) :
    μ → List Str → μ × List E × ReadStatus
  | m, [] => (m, [], .ok)
  | m, t :: ts =>
    let r := read m t
    if r.2.2 = .ok then
      let r' := readFiles read (n + lineFeeds t) r.1 ts
      (r'.1, r.2.1 ++ r'.2.1, r'.2.2)
    else (r.1, r.2.1, laterBy n r.2.2)

end Kws.Spec
