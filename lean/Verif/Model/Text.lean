import Verif.Model.CrystalUtils

/-!
Python strings and text files, as far as the readers and writers of DefDAP use them. A string is the
list of its characters. White space is the ASCII one. A text file is the list of its lines, each with
its line break; a position in it, as `tell` and `seek` use it, is the number of lines read. Texts
contain no carriage returns.
-/

namespace DefDAP

/-- A string (`file_readers.py:912-957`). -/
abbrev Str := List Char

/-- The text of a literal of the code (`file_readers.py:413-463, 483-493`). -/
def lit (s : String) : Str := s.toList

/-- White space as `str.strip` and `str.split` see it (`file_readers.py:133-165, 253-284, 417-432,
947-951`). -/
def isWs (c : Char) : Bool := c = ' ' || c = '\t' || c = '\n' || c = '\r' || c = '\x0b' || c = '\x0c'

/-- `s.strip()` (`file_readers.py:261, 269, 417, 428, 947-951`). -/
def strip (s : Str) : Str := ((s.dropWhile isWs).reverse.dropWhile isWs).reverse

/-- The pieces between the characters that satisfy `p` (`file_readers.py:117-118, 417`). -/
def splitWhen (p : Char → Bool) : Str → List Str
  | [] => [[]]
  | c :: t =>
    if p c then [] :: splitWhen p t
    else match splitWhen p t with
      | [] => [[c]]
      | h :: r => (c :: h) :: r

/-- `s.split(sep)` for a separator of one character (`file_readers.py:117-118, 417`). -/
def splitSep (sep : Char) (s : Str) : List Str := splitWhen (fun c => decide (c = sep)) s

/-- `s.split()`: the words (`file_readers.py:264, 277-284, 351`). -/
def splitWs (s : Str) : List Str := (splitWhen isWs s).filter fun w => !w.isEmpty

/-- `sub in s` (`file_readers.py:139-148`). -/
def hasSub (sub s : Str) : Bool := decide (sub <:+: s)

/-- The lines of a text, each with its line break; the last may lack one (`file_readers.py:424,
945`). -/
def linesOf : Str → List Str
  | [] => []
  | c :: t =>
    if c = '\n' then ['\n'] :: linesOf t
    else match linesOf t with
      | [] => [[c]]
      | h :: r => (c :: h) :: r

/-- `s.split()[-1]` (`file_readers.py:277-284`). -/
def lastWord (s : Str) : Except Err Str :=
  match (splitWs s).getLast? with
  | some w => .ok w
  | none => .error .indexError

/-! ### Numbers -/

/-- A digit of a number (`file_readers.py:282-284, 440-463`). -/
def isDig (c : Char) : Bool := decide ('0' ≤ c) && decide (c ≤ '9')

/-- The digit `n` (`file_readers.py:452`). -/
def digChar (n : Nat) : Char := Char.ofNat (48 + n)

/-- The value of a string of digits (`file_readers.py:282-284, 440-441`). -/
def readNat (s : Str) : Nat := s.foldl (fun a c => 10 * a + (c.toNat - 48)) 0

/-- `str(n)` (`file_readers.py:452, 475, 497`). -/
def natStr (n : Nat) : Str := if n < 10 then [digChar n] else natStr (n / 10) ++ [digChar (n % 10)]

/-- `str(z)` (`file_writers.py:94-124`). -/
def intStr (z : Int) : Str := if z < 0 then '-' :: natStr z.natAbs else natStr z.natAbs

/-- Digits of an integer literal; underscores between digits, which Python allows, are left out
(`file_readers.py:282-284, 440-441`). -/
def parseNat (s : Str) : Except Err Nat :=
  if !s.isEmpty && s.all isDig then .ok (readNat s) else .error .valueError

/-- `int(s)` (`file_readers.py:282-284, 440-441`). -/
def parseInt (s : Str) : Except Err Int :=
  match strip s with
  | '-' :: t => (parseNat t).bind fun n => .ok (-(n : Int))
  | '+' :: t => (parseNat t).bind fun n => .ok (n : Int)
  | t => (parseNat t).bind fun n => .ok (n : Int)

/-- The exponent of a float literal, applied to `v` (`file_readers.py:280, 443-447`). -/
def parseExp (v : ℚ) : Str → Except Err ℚ
  | [] => .ok v
  | c :: t =>
    if c = 'e' || c = 'E' then
      match t with
      | '-' :: u => (parseNat u).bind fun n => .ok (v / 10 ^ n)
      | '+' :: u => (parseNat u).bind fun n => .ok (v * 10 ^ n)
      | u => (parseNat u).bind fun n => .ok (v * 10 ^ n)
    else .error .valueError

/-- A float literal without sign; `nan` and `inf` are left out (`file_readers.py:280, 443-447`). -/
def parseUnsigned (s : Str) : Except Err ℚ :=
  let a := s.takeWhile isDig
  match s.dropWhile isDig with
  | '.' :: t =>
    let b := t.takeWhile isDig
    if a.isEmpty && b.isEmpty then .error .valueError
    else parseExp ((readNat (a ++ b) : ℚ) / 10 ^ b.length) (t.dropWhile isDig)
  | t => if a.isEmpty then .error .valueError else parseExp (readNat a : ℚ) t

/-- `float(s)` (`file_readers.py:280, 443-447`). -/
def parseFloat (s : Str) : Except Err ℚ :=
  match strip s with
  | '-' :: t => (parseUnsigned t).bind fun q => .ok (-q)
  | '+' :: t => parseUnsigned t
  | t => parseUnsigned t

/-- A string of digits filled up with zeros on the left (`file_writers.py:96-124`). -/
def padZeros (n : Nat) (s : Str) : Str := List.replicate (n - s.length) '0' ++ s

/-- `f"{x:.nf}"` for `n` at least one: rounded half to even (`file_writers.py:96-124`). -/
noncomputable def fixedStr (n : Nat) (x : ℝ) : Str :=
  let k := (npRound (|x| * 10 ^ n)).toNat
  (open Classical in if x < 0 then ['-'] else []) ++
    (natStr (k / 10 ^ n) ++ '.' :: padZeros n (natStr (k % 10 ^ n)))

/-- `round(x, n)` (`file_readers.py:458-463`). -/
noncomputable def pyRound (n : Nat) (x : ℝ) : ℝ := (npRound (x * 10 ^ n) : ℝ) / 10 ^ n

/-! ### Reading up to a line -/

/-- `file.readline()`; `none` at the end of the file (`file_readers.py:424, 945`). -/
def lineAt (file : List Str) (pos : Nat) : Option Str := file[pos]?

/-- The test for the last line (`file_readers.py:946-949`). -/
def isTerm (term : Str) (exact' : Bool) (line : Str) : Bool :=
  if exact' then decide (strip line = term) else term.isPrefixOf (strip line)

/-- The test for lines to skip (`file_readers.py:951`): a comment starts with the one character
`comment`. -/
def isSkipped (comment : Char) (line : Str) : Bool :=
  match strip line with
  | [] => true
  | c :: _ => decide (c = comment)

/-- `read_until_string` (`file_readers.py:912-957`): the lines and the new position. `process` is
the identity if no function is given. One unit of `fuel` per line. -/
def readUntil {α : Type} (file : List Str) (term : Str) (comment : Char) (exact' : Bool)
    (process : Str → α) : Nat → Nat → List α → Except Err (List α × Nat)
  | 0, _, _ => .error .fuel
  | fuel + 1, pos, lines =>
    match lineAt file pos with
    | none => .ok (lines, pos)
    | some line =>
      if isTerm term exact' line then .ok (lines, pos)
      else if isSkipped comment line then
        readUntil file term comment exact' process fuel (pos + 1) lines
      else readUntil file term comment exact' process fuel (pos + 1) (lines ++ [process line])

/-! ### CPR files -/

/-- `parse_line` (`file_readers.py:415-420`): the key and value to store, unless the line does not
have exactly one `=`. -/
def parseLine (line : Str) : Option (Str × Str) :=
  match splitSep '=' (strip line) with
  | [k, v] => some (k, v)
  | _ => none

/-- The part before the last `]`, if there is one (`file_readers.py:413, 432`). -/
def beforeLast : Str → Option Str
  | [] => none
  | c :: t =>
    match beforeLast t with
    | some r => some (c :: r)
    | none => if c = ']' then some [] else none

/-- `group_pat.match(line.strip()).group(1)` with the pattern `\[(.+)\]` (`file_readers.py:413,
432`): the match is greedy and need not reach the end of the line. No match is `None`, without the
attribute `group`. -/
def groupName (line : Str) : Except Err Str :=
  match strip line with
  | '[' :: t =>
    match beforeLast t with
    | some (c :: r) => .ok (c :: r)
    | some [] => .error .attributeError
    | none => .error .attributeError
  | _ => .error .attributeError

/-- `d[key] = val` on an association list that keeps the order of first insertion
(`file_readers.py:418, 436`). -/
def strSet {α : Type} (key : Str) (val : α) : List (Str × α) → List (Str × α)
  | [] => [(key, val)]
  | (k, v) :: t => if k = key then (k, val) :: t else (k, v) :: strSet key val t

/-- `group_dict[key] = val` (`file_readers.py:418`), unless the line is ignored. -/
def dictStep (d : List (Str × Str)) : Option (Str × Str) → List (Str × Str)
  | some kv => strSet kv.1 kv.2 d
  | none => d

/-- The dict of a group: its lines one by one (`file_readers.py:433-435`). -/
def groupDict (lines : List (Option (Str × Str))) : List (Str × Str) := lines.foldl dictStep []

/-- The loop over groups of `load_oxford_cpr` (`file_readers.py:422-436`). -/
def cprGroups (file : List Str) : Nat → Nat → List (Str × List (Str × Str)) →
    Except Err (List (Str × List (Str × Str)))
  | 0, _, _ => .error .fuel
  | fuel + 1, pos, meta' =>
    match lineAt file pos with
    | none => .ok meta'
    | some line =>
      if isSkipped ';' line then cprGroups file fuel (pos + 1) meta'
      else
        (groupName line).bind fun name =>
        (readUntil file ['['] ';' false parseLine (file.length + 1) (pos + 1) []).bind fun r =>
        cprGroups file fuel r.2 (strSet name (groupDict r.1) meta')

/-- `metadata` of a CPR text (`file_readers.py:412-436`). -/
def parseCpr (text : Str) : Except Err (List (Str × List (Str × Str))) :=
  let file := linesOf text
  cprGroups file (file.length + 1) 0 []

end DefDAP
