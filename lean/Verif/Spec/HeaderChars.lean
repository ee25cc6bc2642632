import Verif.Model.Lexer

/-!
# The characters of a text
-/

namespace EP.Gen.Jinja

def Sym.chars : Sym → Str
  | .c ch => [ch]
  | .nm x => x
  | .raw t => t
  | .path x => x

/-- The characters. -/
def chars (t : Text) : Str := t.flatMap Sym.chars

/-- A name. -/
def Word (x : Str) : Prop := x ≠ [] ∧ ∀ c ∈ x, identChar c = true

/-- A spelling whose tokens do not depend on what comes after a space: it does not end in a comment, a literal, … -/
def Whole (t : Str) : Prop :=
  match (lexFrom .start (lit t)).2 with
  | .start | .ident _ => True
  | _ => False

/-- A file name that can be in a comment or in a line. -/
def Plain (x : Str) : Prop := ∀ c ∈ x, c ≠ '\n' ∧ c ≠ '*'

def Sym.Good : Sym → Prop
  | .c _ => True
  | .nm x => Word x
  | .raw t => Whole t
  | .path x => Plain x

def Good (t : Text) : Prop := ∀ s ∈ t, s.Good

/-- The tokens of a spelling. -/
def Tok.expand : Tok → List Tok
  | .raw t => toks t
  | t => [t]

/-- The file consists of these tokens. -/
def Tokens (s : Str) (ts : List Tok) : Prop := lexFrom .start (lit s) = (ts, .start)

end EP.Gen.Jinja
