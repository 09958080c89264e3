import Verif.Text

/-!
# Model of the configuration library

`proxy/common/src/config.c`. Strings are lists of bytes without NUL. Whether memory is there is told by the size
of the allocation (structures as on a 64-bit machine). Indices, lengths and positions of the parser, which are of
type `unsigned`, are counted without bound: the model is for texts of less than 2^31 characters.
-/

namespace FreeCoAP.Config

/-- `config_entry_t` (config.h 55–61). The value is null after a failed replacement. -/
structure Entry where
  name : Bytes
  value : Option Bytes
  deriving DecidableEq, Repr

/-- `config_section_t` (config.h 63–70): the list of the entries. -/
structure Section where
  name : Bytes
  entries : List Entry
  deriving DecidableEq, Repr

/-- `config_t` (config.h 72–77): the list of the sections. -/
abbrev Store := List Section

/-- `config_section_find_entry` (config.c 804–817). -/
def findEntry (n : Bytes) : List Entry → Option Entry
  | [] => none
  | e :: es => if e.name = n then some e else findEntry n es

/-- `config_find_section` (config.c 859–872). -/
def findSection (n : Bytes) : Store → Option Section
  | [] => none
  | s :: ss => if s.name = n then some s else findSection n ss

/-- `strdup` and the like: is there memory for a string? -/
def room (mem : Nat → Bool) (s : Bytes) : Bool := mem (s.length + 1)

/-- The replacement of a value (config.c 913–919): the old value is freed first. -/
def replace (mem : Nat → Bool) (n v : Bytes) : List Entry → List Entry
  | [] => []
  | e :: es => if e.name = n then { e with value := if room mem v then some v else none } :: es else e :: replace mem n v es

/-- The second half of `config_set` (config.c 910–929), on the entries of the section: the entries, and whether it succeeded.
A new entry is put at the end (`config_section_add_entry`, config.c 819–838). -/
def setEntry (mem : Nat → Bool) (n v : Bytes) (es : List Entry) : List Entry × Bool :=
  match findEntry n es with
  | some _ => (replace mem n v es, room mem v)
  | none => if mem 24 && room mem n && room mem v then (es ++ [⟨n, some v⟩], true) else (es, false)

/-- An update of the first section with a name. -/
def update (sec : Bytes) (es : List Entry) : Store → Store
  | [] => []
  | s :: ss => if s.name = sec then { s with entries := es } :: ss else s :: update sec es ss

/-- `config_set` (config.c 895–930): the configuration afterwards, and whether it succeeded; otherwise the error is
`CONFIG_ENOMEM`. A new section is put at the end (`config_add_section`, config.c 874–893), and stays there if the entry
cannot be added. -/
def set (mem : Nat → Bool) (st : Store) (sec n v : Bytes) : Store × Bool :=
  match findSection sec st with
  | some s => let r := setEntry mem n v s.entries; (update sec r.1 st, r.2)
  | none =>
    if mem 32 && room mem sec then let r := setEntry mem n v []; (st ++ [⟨sec, r.1⟩], r.2)
    else (st, false)

/-- `config_get` (config.c 932–947). -/
def get (st : Store) (sec n : Bytes) : Option Bytes :=
  match findSection sec st with
  | some s =>
    match findEntry n s.entries with
    | some e => e.value
    | none => none
  | none => none

/-- `config_strerr` (config.c 104–121) on an `int`, whose negation overflows for the least of them. -/
def strerr (error : Int) : Out Bytes :=
  if error = -2 ^ 31 then .ub
  else
    let e := -error
    if e < 0 ∨ e > 6 then .ok (str "unknown")
    else if e = 0 then .ok (str "ok")
    else if e = 1 then .ok (str "invalid argument")
    else if e = 2 then .ok (str "out of memory")
    else if e = 3 then .ok (str "input/output error")
    else if e = 4 then .ok (str "lexical error")
    else if e = 5 then .ok (str "syntax error")
    else .ok (str "unknown")

/-! ## The lexer -/

/-- Tokens, with their strings (config.c 44–56). -/
inductive Token where
  | eof | none | eol | assign | left | right | id (s : Bytes) | num (s : Bytes) | quote (s : Bytes)
  deriving DecidableEq, Repr

/-- A position: line and column. -/
structure Pos where
  line : Nat
  col : Nat
  deriving DecidableEq, Repr

/-- The position after a character (config.c 283–294). -/
def bump (p : Pos) (c : Byte) : Pos :=
  if c = 0x0A then ⟨p.line + 1, 0⟩
  else if c = 0x09 then ⟨p.line, (p.col + 4) / 4 * 4⟩
  else ⟨p.line, p.col + 1⟩

/-- The reader: the text that was not read. It is `none` when the NUL at the end of the text was read: then `in_idx` is
`in_len + 1`, and the next character would be read from behind the text. -/
structure Cur where
  rest : Option Bytes
  pos : Pos
  deriving DecidableEq, Repr

/-- `config_parser_str_t` (config.c 71–77): the characters, and the length for which there is memory. The characters are in the memory and a NUL follows
them: operations that would break this are undefined. -/
structure Str where
  val : Bytes
  len : Nat
  fits : val.length ≤ len ∧ 0 < len
  deriving DecidableEq, Repr

/-- Append a character within a block of `len + 1` bytes (config.c 243). Without room for it and the NUL, the text runs over the end of the block. -/
def strPut (val : Bytes) (len : Nat) (c : Byte) : Out Str :=
  if h : val.length < len then .ok ⟨val ++ [c], len, by simp only [List.length_append, List.length_singleton]; omega⟩ else .ub

/-- `config_parser_str_create` (config.c 201–212). -/
def strCreate (mem : Nat → Bool) : Out Str := if mem 65 then .ok ⟨[], 64, by decide⟩ else .err .ENOMEM

/-- `config_parser_str_append` (config.c 225–245). -/
def strAppend (mem : Nat → Bool) (s : Str) (c : Byte) : Out Str :=
  if s.val.length ≥ s.len then
    if mem (2 * s.len + 1) then strPut s.val (2 * s.len) c else .err .ENOMEM
  else strPut s.val s.len c

/-- `config_parser_str_copy` (config.c 247–265). -/
def strCopy (mem : Nat → Bool) (s : Str) (t : Bytes) : Out Str :=
  t.foldlM (strAppend mem) ⟨[], s.len, Nat.zero_le _, s.fits.2⟩

/-- `config_parser_next_skip_ws` (config.c 298–315): the text from the character it returns, which is not read yet here. -/
def skipWs : Bytes → Pos → Bytes × Pos
  | [], p => ([], p)
  | c :: s, p => if c ≠ 0x0A ∧ isSpace c = true then skipWs s (bump p c) else (c :: s, p)

/-- The next character: at the end of the text, its NUL. -/
def peek : Bytes → Byte
  | [] => 0
  | c :: _ => c

/-- `config_parser_set_token_pos` (config.c 327–339), for the position before the character `c`. -/
def tokenPos (p : Pos) (c : Byte) : Pos := if c = 0x0A then ⟨p.line, p.col + 1⟩ else bump p c

/-- The rest of a comment (config.c 362–377). -/
def comment : Bytes → Pos → Token × Cur
  | [], p => (.eof, ⟨none, bump p 0⟩)
  | c :: s, p => if c = 0x0A then (.eol, ⟨some s, bump p c⟩) else comment s (bump p c)

/-- The loops over the characters of identifiers and numbers (config.c 402–411 and 423–432). The last character is put
back, with `config_parser_put_back` (config.c 317–325), also when it is the NUL. -/
def scanWhile (mem : Nat → Bool) (p : Byte → Bool) : Str → Bytes → Pos → Out (Str × Bytes × Pos)
  | st, [], pos => .ok (st, [], pos)
  | st, c :: s, pos =>
    if p c then strAppend mem st c >>= fun st => scanWhile mem p st s (bump pos c) else .ok (st, c :: s, pos)

/-- The loop over the characters of a quotation (config.c 443–461); `pc` is the character before. -/
def scanQuote (mem : Nat → Bool) : (pc : Byte) → Str → Bytes → Pos → Out (Str × Bytes × Pos)
  | _, _, [], _ => .err .ELEXICAL
  | pc, st, c :: s, pos =>
    if c = 0x22 ∧ pc ≠ 0x5C then .ok (st, s, bump pos c)
    else if c = 0x0A ∧ pc ≠ 0x5C then .err .ELEXICAL
    else strAppend mem st c >>= fun st => scanQuote mem c st s (bump pos c)

/-- The characters of an identifier after the first. -/
def idChar (c : Byte) : Bool := isAlpha c || isDigit c || c = 0x5F

/-- `config_parser_lex` (config.c 341–464) after the white space, except for the position of the token. -/
def lexAt (mem : Nat → Bool) (s : Bytes) (p : Pos) : Out (Token × Cur) :=
  match s with
  | [] => .ok (.eof, ⟨none, bump p 0⟩)
  | c :: t =>
    if c = 0x0A then .ok (.eol, ⟨some t, bump p c⟩)
    else if c = 0x3B then .ok (comment t (bump p c))
    else if c = 0x3D then .ok (.assign, ⟨some t, bump p c⟩)
    else if c = 0x5B then .ok (.left, ⟨some t, bump p c⟩)
    else if c = 0x5D then .ok (.right, ⟨some t, bump p c⟩)
    else if isAlpha c then
      strCreate mem >>= fun st => scanWhile mem idChar st (c :: t) p >>= fun r =>
      pure (.id r.1.val, ⟨some r.2.1, r.2.2⟩)
    else if isDigit c then
      strCreate mem >>= fun st => scanWhile mem isDigit st (c :: t) p >>= fun r =>
      pure (.num r.1.val, ⟨some r.2.1, r.2.2⟩)
    else if c = 0x22 then
      strCreate mem >>= fun st => scanQuote mem 0 st t (bump p c) >>= fun r =>
      pure (.quote r.1.val, ⟨some r.2.1, r.2.2⟩)
    else .err .ELEXICAL

/-- `config_parser_lex` (config.c 341–464): the position of the token, and the token. -/
def lex (mem : Nat → Bool) (c : Cur) : Pos × Out (Token × Cur) :=
  match c.rest with
  | none => (c.pos, .ub)
  | some s => let r := skipWs s c.pos; (tokenPos r.2 (peek r.1), lexAt mem r.1 r.2)

/-! ## The parser -/

/-- `config_parser_t` (config.c 82–101), with the configuration that the callback works on. -/
structure Parser where
  cur : Cur
  token : Token
  tpos : Pos
  stack : List Bytes
  sec : Str
  store : Store
  deriving DecidableEq, Repr

/-- The C functions return a status, and the parser is changed also if they fail. -/
abbrev Step := Parser × Out Unit

/-- `ret = …; if (ret != CONFIG_OK) return ret;` and what follows. -/
def Step.next (r : Step) (f : Parser → Step) : Step :=
  match r.2 with
  | .ok () => f r.1
  | _ => r

/-- `config_parser_lex` on the parser. After an error the token does not matter. -/
def lexStep (mem : Nat → Bool) (p : Parser) : Step :=
  let r := lex mem p.cur
  match r.2 with
  | .ok (t, c) => ({ p with cur := c, token := t, tpos := r.1 }, .ok ())
  | .err e => ({ p with tpos := r.1 }, .err e)
  | .ub => (p, .ub)

/-- `config_parser_stack_push` (config.c 171–183). -/
def push (mem : Nat → Bool) (s : Bytes) (p : Parser) : Step :=
  if mem 16 && room mem s then ({ p with stack := s :: p.stack }, .ok ()) else (p, .err .ENOMEM)

/-- `config_parser_id` and `config_parser_name` (config.c 466–480 and 514–517). -/
def name (mem : Nat → Bool) (p : Parser) : Step :=
  match p.token with
  | .id s => (push mem s p).next (lexStep mem)
  | _ => (p, .err .ESYNTAX)

/-- `config_parser_value`, `config_parser_num` and `config_parser_quote` (config.c 482–512 and 519–534). -/
def value (mem : Nat → Bool) (p : Parser) : Step :=
  match p.token with
  | .id s => (push mem s p).next (lexStep mem)
  | .num s => (push mem s p).next (lexStep mem)
  | .quote s => (push mem s p).next (lexStep mem)
  | _ => (p, .err .ESYNTAX)

/-- The callback with the value and the name from the stack (config.c 559–568). A string that is not there would be a null
pointer. -/
def assign (mem : Nat → Bool) (p : Parser) : Step :=
  match p.stack with
  | v :: n :: rest =>
    let r := set mem p.store p.sec.val n v
    ({ p with stack := rest, store := r.1 }, if r.2 then .ok () else .err .ENOMEM)
  | _ => (p, .ub)

/-- `config_parser_assignment` (config.c 536–571). -/
def assignment (mem : Nat → Bool) (p : Parser) : Step :=
  (name mem p).next fun p =>
  if p.token = .assign then (lexStep mem p).next fun p => (value mem p).next fun p => assign mem p
  else (p, .err .ESYNTAX)

/-- The new section (config.c 594–600). -/
def enter (mem : Nat → Bool) (p : Parser) : Step :=
  match p.stack with
  | n :: rest =>
    match strCopy mem p.sec n with
    | .ok s => ({ p with stack := rest, sec := s }, .ok ())
    | .err e => ({ p with stack := rest }, .err e)
    | .ub => (p, .ub)
  | _ => (p, .ub)

/-- `config_parser_section` (config.c 573–609), which is called with a left bracket. -/
def heading (mem : Nat → Bool) (p : Parser) : Step :=
  (lexStep mem p).next fun p => (name mem p).next fun p =>
  if p.token = .right then (enter mem p).next fun p => lexStep mem p
  else (p, .err .ESYNTAX)

/-- `config_parser_expression` (config.c 611–641). -/
def expression (mem : Nat → Bool) (p : Parser) : Step :=
  (match p.token with
    | .id _ => assignment mem p
    | .left => heading mem p
    | _ => (p, .ok ())).next fun p =>
  match p.token with
  | .eof => (p, .ok ())
  | .eol => (p, .ok ())
  | _ => (p, .err .ESYNTAX)

/-- The loop of `config_parser_exec` (config.c 681–701) with `config_parser_statement` (config.c 643–654). Each round reads at least
one character, so that `fuel` does not run out if it starts with more than the length of the text. -/
def exec (mem : Nat → Bool) : (fuel : Nat) → Parser → Step
  | 0, p => (p, .ub)
  | fuel + 1, p =>
    (lexStep mem p).next fun p =>
    match p.token with
    | .eol => exec mem fuel p
    | .eof => (p, .ok ())
    | _ => (expression mem p).next (exec mem fuel)

/-- What `config_parse` leaves: the configuration, the status, and the position if it is set. -/
structure Result where
  store : Store
  status : Out Unit
  pos : Option Pos
  deriving DecidableEq, Repr

/-- `config_parser_create` (config.c 705–720) and the start of `config_parser_exec` (config.c 656–680). -/
def start (st : Store) (s : Bytes) : Parser := ⟨⟨some s, ⟨1, 0⟩⟩, .none, ⟨0, 0⟩, [], ⟨[], 64, by decide⟩, st⟩

/-- `config_parse` (config.c 955–967). -/
def parse (mem : Nat → Bool) (st : Store) (s : Bytes) : Result :=
  if mem 65 = false then ⟨st, .err .ENOMEM, none⟩
  else if room mem s = false then ⟨st, .err .ENOMEM, some ⟨0, 0⟩⟩
  else
    let r := exec mem (s.length + 2) (start st s)
    match r.2 with
    | .ok () => ⟨r.1.store, .ok (), some ⟨0, 0⟩⟩
    | e => ⟨r.1.store, e, some r.1.tpos⟩

end FreeCoAP.Config
