import Verif.Model.Render

/-!
# The tokens of a header

C++ tokens, as far as the templates use them: identifiers (and numbers), string literals, single characters.  Comments
are dropped.  A line that starts with `#` is one token.  A spelling from the schema is one token; it has to stand
alone, so that its characters can be divided into tokens without looking at the others (`Proof/HeaderChars`).
-/

namespace EP.Gen.Jinja

open Template

inductive Tok where
  | id (x : Str)
  | raw (t : Str)
  | str (s : Str)
  | line (s : Str)
  | sym (c : Char)
  deriving DecidableEq, Repr

/-- The characters; the first symbol is the last one of the list. -/
def flat : List Sym → Str → Str
  | [], r => r
  | .c ch :: b, r => flat b (ch :: r)
  | .nm x :: b, [] => flat b x
  | .nm x :: b, r => flat b (x ++ r)
  | .raw x :: b, r => flat b (x ++ r)
  | .path x :: b, r => flat b (x ++ r)

inductive Lex where
  | start
  | ident (b : List Sym)
  | quoted (b : List Sym)
  | escaped (b : List Sym)
  | slash
  | comment
  /-- in a comment that ends with an asterisk and a slash -/
  | block
  /-- there, after an asterisk -/
  | star
  | line (b : List Sym)
  /-- after a spelling -/
  | spelled (t : Str)
  /-- a spelling that does not stand alone -/
  | bad
  deriving DecidableEq, Repr

/-- Outside of identifiers, comments and literals. -/
def startStep : Sym → List Tok × Lex
  | .nm x => ([], .ident [.nm x])
  | .raw t => ([], .spelled t)
  | .path _ => ([], .bad)
  | .c ch =>
    if identChar ch then ([], .ident [.c ch])
    else if ch == ' ' || ch == '\n' || ch == '\t' then ([], .start)
    else if ch == '"' then ([], .quoted [])
    else if ch == '/' then ([], .slash)
    else if ch == '#' then ([], .line [])
    else ([.sym ch], .start)

def lexStep : Lex → Sym → List Tok × Lex
  | .start, s => startStep s
  | .ident b, .nm x => ([], .ident (.nm x :: b))
  | .ident _, .raw _ | .ident _, .path _ => ([], .bad)
  | .ident b, .c ch =>
    if identChar ch then ([], .ident (.c ch :: b))
    else
      let r := startStep (.c ch)
      (.id (flat b []) :: r.1, r.2)
  | .quoted b, .c ch =>
    if ch == '"' then ([.str (flat b [])], .start)
    else if ch == '\\' then ([], .escaped (.c ch :: b))
    else if ch == '\n' then ([], .bad)
    else ([], .quoted (.c ch :: b))
  | .quoted b, .nm x => ([], .quoted (.nm x :: b))
  | .quoted _, .raw _ | .quoted _, .path _ => ([], .bad)
  | .escaped b, .c ch => if ch == '\n' then ([], .bad) else ([], .quoted (.c ch :: b))
  | .escaped _, _ => ([], .bad)
  | .slash, .c ch =>
    if ch == '/' then ([], .comment)
    else if ch == '*' then ([], .block)
    else
      let r := startStep (.c ch)
      (.sym '/' :: r.1, r.2)
  | .slash, .nm x => ([.sym '/'], .ident [.nm x])
  | .slash, .raw _ | .slash, .path _ => ([], .bad)
  | .comment, .c ch => if ch == '\n' then ([], .start) else ([], .comment)
  | .comment, .nm _ | .comment, .path _ => ([], .comment)
  | .comment, .raw _ => ([], .bad)
  | .block, .c ch => if ch == '*' then ([], .star) else ([], .block)
  | .block, .nm _ | .block, .path _ => ([], .block)
  | .block, .raw _ => ([], .bad)
  | .star, .c ch => if ch == '/' then ([], .start) else if ch == '*' then ([], .star) else ([], .block)
  | .star, .nm _ => ([], .block)
  | .star, .raw _ | .star, .path _ => ([], .bad)
  | .line b, .c ch => if ch == '\n' then ([.line (flat b [])], .start) else ([], .line (.c ch :: b))
  | .line b, .nm x => ([], .line (.nm x :: b))
  | .line b, .path x => ([], .line (.path x :: b))
  | .line _, .raw _ => ([], .bad)
  | .spelled t, .c ch =>
    if identChar ch then ([], .bad)
    else
      let r := startStep (.c ch)
      (.raw t :: r.1, r.2)
  | .spelled _, _ => ([], .bad)
  | .bad, _ => ([], .bad)

def lexFrom : Lex → Text → List Tok × Lex
  | st, [] => ([], st)
  | st, s :: r =>
    let x := lexStep st s
    let y := lexFrom x.2 r
    (x.1 ++ y.1, y.2)

/-- The text consists of these tokens. -/
def Lexes (t : Text) (ts : List Tok) : Prop := lexFrom .start t = (ts, .start)

/-- The tokens of a text without names. -/
def toks (s : Str) : List Tok := (lexFrom .start (lit s ++ [.c ' '])).1

end EP.Gen.Jinja
