import Verif.Brass.Monad

/-!
# Model of the `std` string functions used by `code.rs`

`String::from_utf8_lossy` and slicing `&str` by byte ranges.  Written after the documented behaviour and the source
of `core::str::lossy` (Utf8Chunks): invalid sequences are replaced by U+FFFD, one per maximal prefix of a valid
sequence.
-/

namespace Verif.Brass

/-- Continuation byte `0b10xxxxxx`. -/
def isCont (b : UInt8) : Bool := b &&& 0xC0 == 0x80

/-- Second byte admissible after a 3-byte lead (`core::str::lossy`). -/
def second3 (b c : UInt8) : Bool :=
  if b == 0xE0 then 0xA0 ≤ c && c ≤ 0xBF
  else if b == 0xED then 0x80 ≤ c && c ≤ 0x9F
  else 0x80 ≤ c && c ≤ 0xBF

/-- Second byte admissible after a 4-byte lead. -/
def second4 (b c : UInt8) : Bool :=
  if b == 0xF0 then 0x90 ≤ c && c ≤ 0xBF
  else if b == 0xF4 then 0x80 ≤ c && c ≤ 0x8F
  else 0x80 ≤ c && c ≤ 0xBF

/-- Bytes of U+FFFD. -/
def replacement : List UInt8 := [0xEF, 0xBF, 0xBD]

/-- `String::from_utf8_lossy(bytes).to_string()`.  A byte past the end counts as 0 (`safe_get`), i.e. as not a
continuation byte. -/
def fromUtf8Lossy : List UInt8 → List UInt8
  | [] => []
  | b :: r =>
    if b < 0x80 then b :: fromUtf8Lossy r
    else if 0xC2 ≤ b && b ≤ 0xDF then
      match r with
      | c :: r' => if isCont c then b :: c :: fromUtf8Lossy r' else replacement ++ fromUtf8Lossy (c :: r')
      | [] => replacement
    else if 0xE0 ≤ b && b ≤ 0xEF then
      match r with
      | c :: r' =>
        if second3 b c then
          match r' with
          | d :: r'' => if isCont d then b :: c :: d :: fromUtf8Lossy r'' else replacement ++ fromUtf8Lossy (d :: r'')
          | [] => replacement
        else replacement ++ fromUtf8Lossy (c :: r')
      | [] => replacement
    else if 0xF0 ≤ b && b ≤ 0xF4 then
      match r with
      | c :: r' =>
        if second4 b c then
          match r' with
          | d :: r'' =>
            if isCont d then
              match r'' with
              | e :: r''' =>
                if isCont e then b :: c :: d :: e :: fromUtf8Lossy r''' else replacement ++ fromUtf8Lossy (e :: r''')
              | [] => replacement
            else replacement ++ fromUtf8Lossy (d :: r'')
          | [] => replacement
        else replacement ++ fromUtf8Lossy (c :: r')
      | [] => replacement
    else replacement ++ fromUtf8Lossy r
termination_by structural l => l

/-- `str::is_char_boundary` -/
def isCharBoundary (s : Str) (i : Nat) : Bool :=
  if i = 0 then true
  else match s[i]? with
    | some b => !isCont b
    | none => i == s.length

/-- `&s[i..]`: panics unless `i` is a char boundary. -/
def sliceFrom (s : Str) (i : Nat) : M Str :=
  if isCharBoundary s i then M.pure (s.drop i) else M.panic

/-- `&s[0..n]` -/
def sliceTo (s : Str) (n : Nat) : M Str :=
  if isCharBoundary s n then M.pure (s.take n) else M.panic

end Verif.Brass
