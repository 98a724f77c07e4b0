/-
Strings and byte offsets.

Rust `str` / `ropey::Rope` contents are modelled as `List Char`; a byte offset is a sum
of `Char.utf8Size`.  A byte offset that falls inside a character, or past the end, makes
the Rust slicing operation panic; here it gives `none`.
-/
namespace Verif

/-- UTF-8 length of a text (`str::len`, `Rope::len_bytes`). -/
def utf8Len : List Char → Nat
  | [] => 0
  | c :: cs => c.utf8Size + utf8Len cs

/-- `str::split_at`: cut at byte `n`; `none` is Rust's panic (not a character boundary,
or past the end). -/
def splitAtByte : List Char → Nat → Option (List Char × List Char)
  | cs, 0 => some ([], cs)
  | [], _ + 1 => none
  | c :: cs, n + 1 =>
    if c.utf8Size ≤ n + 1 then
      (splitAtByte cs (n + 1 - c.utf8Size)).map fun p => (c :: p.1, p.2)
    else none

/-- `&text[a..b]`; `none` is a panic. -/
def sliceBytes (cs : List Char) (a b : Nat) : Option (List Char) :=
  if b < a then none
  else (splitAtByte cs a).bind fun p => (splitAtByte p.2 (b - a)).map Prod.fst

/-- `Rope::byte_to_char`: index of the character that byte `n` belongs to (the number of
characters if `n` is the length); `none` is the panic for an offset past the end. -/
def byteToChar : List Char → Nat → Option Nat
  | _, 0 => some 0
  | [], _ + 1 => none
  | c :: cs, n + 1 =>
    if n + 1 < c.utf8Size then some 0 else (byteToChar cs (n + 1 - c.utf8Size)).map (· + 1)

/-- `Rope::char_to_byte`: byte offset of the `k`-th character; `none` is the panic for an
index past the end. -/
def charToByte (cs : List Char) (k : Nat) : Option Nat :=
  if k ≤ cs.length then some (utf8Len (cs.take k)) else none

/-- `rope.insert(rope.byte_to_char(n), t)`. -/
def insertAtByte (cs : List Char) (n : Nat) (t : List Char) : Option (List Char) :=
  (byteToChar cs n).map fun k => cs.take k ++ t ++ cs.drop k

/-- `rope.remove(rope.byte_to_char(a)..rope.byte_to_char(b))`; `none` is the panic for an
offset past the end or a reversed range. -/
def removeBytes (cs : List Char) (a b : Nat) : Option (List Char) :=
  (byteToChar cs a).bind fun i => (byteToChar cs b).bind fun j =>
    if j < i then none else some (cs.take i ++ cs.drop j)

end Verif
