import Verif.Py.Basic
/-!
# Printing of texts (/repo/src/dispersion/material.py 698-711)

A Python string is a sequence of code points, including surrogates, which cannot be encoded.
-/

namespace Disp

/-- A Python string as its code points. -/
abbrev CodePoints := List Nat

/-- `codecs.encode(c, 'utf-8')` for one code point: UnicodeEncodeError, a ValueError, for a
surrogate. -/
def utf8Char (c : Nat) : Res (List Nat) :=
  if c < 0x80 then .ok [c]
  else if c < 0x800 then .ok [0xC0 + c / 0x40, 0x80 + c % 0x40]
  else if 0xD800 ≤ c ∧ c ≤ 0xDFFF then .error .value
  else if c < 0x10000 then .ok [0xE0 + c / 0x1000, 0x80 + c / 0x40 % 0x40, 0x80 + c % 0x40]
  else .ok [0xF0 + c / 0x40000, 0x80 + c / 0x1000 % 0x40, 0x80 + c / 0x40 % 0x40, 0x80 + c % 0x40]

/-- `codecs.encode(string, 'utf-8')`. -/
def utf8Encode (s : CodePoints) : Res (List Nat) := do .ok (← s.mapM utf8Char).flatten

/-- `codecs.decode(bytes, 'ascii', 'ignore')`: bytes from 128 on are skipped. -/
def asciiDecode (bs : List Nat) : CodePoints := bs.filter (· < 0x80)

/-- material.py 698-703 `utf8_to_ascii`. -/
def utf8ToAscii (s : CodePoints) : Res CodePoints := do .ok (asciiDecode (← utf8Encode s))

/-- material.py 705-711 `print_reference` and `print_comment`: what `print` writes for the value of
the metadata. -/
def printField (md : List (String × CodePoints)) (key : String) : Res CodePoints := do
  let s ← dictGet md key
  .ok ((← utf8ToAscii s) ++ [0x0A])

end Disp
