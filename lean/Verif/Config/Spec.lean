import Verif.Config.Model

/-!
# Specification of configurations

A configuration is a map from sections and names to values. The grammar of configuration texts is given as relations between texts
and tokens, and between texts and the settings in them. Of the model only the tokens are used.
-/

namespace FreeCoAP.Config

/-- A setting: section, name and value. -/
structure Setting where
  sec : Bytes
  name : Bytes
  value : Bytes
  deriving DecidableEq, Repr

/-- The value that was set last, in a list of settings with the last one at its end. -/
def lookup (log : List Setting) (sec n : Bytes) : Option Bytes :=
  ((log.filter (fun a => a.sec = sec ∧ a.name = n)).getLast?).map Setting.value

/-! ## Texts -/

/-- White space within a line. -/
def Blank (w : Bytes) : Prop := ∀ c ∈ w, isSpace c = true ∧ c ≠ 0x0A

/-- A letter and then letters, digits and underscores. -/
def IsName (s : Bytes) : Prop := ∃ c t, s = c :: t ∧ isAlpha c = true ∧ ∀ x ∈ t, isAlpha x = true ∨ isDigit x = true ∨ x = 0x5F

/-- One or more digits. -/
def IsNumber (s : Bytes) : Prop := s ≠ [] ∧ ∀ c ∈ s, isDigit c = true

/-- The text between quotation marks: quotation marks and line breaks in it have a backslash before them, and it does not end
with a backslash. -/
structure IsQuoted (q : Bytes) : Prop where
  mark : ∀ a b, q = a ++ 0x22 :: b → a.getLast? = some 0x5C
  line : ∀ a b, q = a ++ 0x0A :: b → a.getLast? = some 0x5C
  last : q.getLast? ≠ some 0x5C

/-- A text begins with a character of a kind. -/
def Begins (p : Byte → Bool) (s : Bytes) : Prop := ∃ c t, s = c :: t ∧ p c = true

/-- The first token of a text, and the text after it. It is `none` at the end of the text. -/
inductive Lexes : (s : Bytes) → Token → Option Bytes → Prop where
  | eof {w : Bytes} : Blank w → Lexes w .eof none
  | eofComment {w t : Bytes} : Blank w → 0x0A ∉ t → Lexes (w ++ 0x3B :: t) .eof none
  | eol {w r : Bytes} : Blank w → Lexes (w ++ 0x0A :: r) .eol (some r)
  | eolComment {w t r : Bytes} : Blank w → 0x0A ∉ t → Lexes (w ++ 0x3B :: (t ++ 0x0A :: r)) .eol (some r)
  | assign {w r : Bytes} : Blank w → Lexes (w ++ 0x3D :: r) .assign (some r)
  | left {w r : Bytes} : Blank w → Lexes (w ++ 0x5B :: r) .left (some r)
  | right {w r : Bytes} : Blank w → Lexes (w ++ 0x5D :: r) .right (some r)
  | id {w n r : Bytes} : Blank w → IsName n → ¬ Begins (fun c => isAlpha c || isDigit c || c = 0x5F) r →
    Lexes (w ++ (n ++ r)) (.id n) (some r)
  | num {w n r : Bytes} : Blank w → IsNumber n → ¬ Begins isDigit r → Lexes (w ++ (n ++ r)) (.num n) (some r)
  | quote {w q r : Bytes} : Blank w → IsQuoted q → Lexes (w ++ 0x22 :: (q ++ 0x22 :: r)) (.quote q) (some r)

/-- The tokens that are values, with the values. -/
inductive IsValue : Token → Bytes → Prop where
  | id {s : Bytes} : IsValue (.id s) s
  | num {s : Bytes} : IsValue (.num s) s
  | quote {s : Bytes} : IsValue (.quote s) s

/-- `name = value` at the start of a text, and the text after it. -/
def Assigns (s : Bytes) (n v : Bytes) (r : Bytes) : Prop :=
  ∃ s1 s2 t, Lexes s (.id n) (some s1) ∧ Lexes s1 .assign (some s2) ∧ Lexes s2 t (some r) ∧ IsValue t v

/-- `[name]` at the start of a text, and the text after it. -/
def Heads (s : Bytes) (n : Bytes) (r : Bytes) : Prop :=
  ∃ s1 s2, Lexes s .left (some s1) ∧ Lexes s1 (.id n) (some s2) ∧ Lexes s2 .right (some r)

/-- Complete lines at the start of a text that begins in section `sec`: the settings in them, the section after them and the text after
them. -/
inductive Lines : (sec s : Bytes) → List Setting → (sec' r : Bytes) → Prop where
  | nil {sec s : Bytes} : Lines sec s [] sec s
  | blank {sec s s1 sec' r : Bytes} {as : List Setting} : Lexes s .eol (some s1) → Lines sec s1 as sec' r → Lines sec s as sec' r
  | assign {sec s s1 s2 n v sec' r : Bytes} {as : List Setting} : Assigns s n v s1 → Lexes s1 .eol (some s2) →
    Lines sec s2 as sec' r → Lines sec s (⟨sec, n, v⟩ :: as) sec' r
  | heading {sec s s1 s2 n sec' r : Bytes} {as : List Setting} : Heads s n s1 → Lexes s1 .eol (some s2) →
    Lines n s2 as sec' r → Lines sec s as sec' r

/-- A text with complete lines, after which there is nothing but white space and comments. -/
def Reads (s : Bytes) (as : List Setting) : Prop := ∃ sec r, Lines [] s as sec r ∧ Lexes r .eof none

/-- A text whose last line is an assignment or a heading without a line break. -/
def Unfinished (s : Bytes) : Prop :=
  ∃ as sec r r', Lines [] s as sec r ∧ ((∃ n v, Assigns r n v r') ∨ (∃ n, Heads r n r')) ∧ Lexes r' .eof none

/-- Tokens other than ends of lines and of the text, at the start of a text. -/
inductive Tokens : (s : Bytes) → List Token → (r : Bytes) → Prop where
  | nil {s : Bytes} : Tokens s [] s
  | cons {s s1 r : Bytes} {t : Token} {ts : List Token} : t ≠ .eol → Lexes s t (some s1) → Tokens s1 ts r → Tokens s (t :: ts) r

/-- The end of a statement. -/
def Ends (t : Token) : Prop := t = .eol ∨ t = .eof

/-- The statements, as tokens. -/
inductive Statement : List Token → Prop where
  | blank {e : Token} : Ends e → Statement [e]
  | assign {n v : Bytes} {t e : Token} : IsValue t v → Ends e → Statement [.id n, .assign, t, e]
  | heading {n : Bytes} {e : Token} : Ends e → Statement [.left, .id n, .right, e]

/-- Tokens with which a statement can begin. -/
def Fits (ts : List Token) : Prop := ∃ us, Statement (ts ++ us)

/-- The number of line breaks in a text. -/
def breaks (s : Bytes) : Nat := s.count 0x0A

/-- What comes after the last line break of a text. -/
def lastLine (s : Bytes) : Bytes := (s.reverse.takeWhile (· ≠ 0x0A)).reverse

/-- The width of a text without line breaks that is written from a column on, with a tab stop every four columns. -/
def width : (col : Nat) → Bytes → Nat
  | col, [] => col
  | col, c :: s => width (if c = 0x09 then col + (4 - col % 4) else col + 1) s

end FreeCoAP.Config
