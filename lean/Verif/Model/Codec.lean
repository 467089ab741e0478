import Verif.Model.Basic
/-!
Python's UTF-8 codec and `base64` module (builtin semantics, not code of the repo), written out so that the round trips through
them are theorems and not assumptions.
-/
namespace Laurelin

/-- Python `bytes` -/
abbrev Bytes := List UInt8

namespace Codec

/-- the byte with the given number (the callers keep it below 256) -/
def byte (n : Nat) : UInt8 := UInt8.ofNat n

/-- RFC 3629 section 3: the octets of one character -/
def utf8Char (c : Char) : Bytes :=
  let n := c.toNat
  if n < 0x80 then [byte n]
  else if n < 0x800 then [byte (0xC0 + n / 64), byte (0x80 + n % 64)]
  else if n < 0x10000 then [byte (0xE0 + n / 4096), byte (0x80 + n / 64 % 64), byte (0x80 + n % 64)]
  else [byte (0xF0 + n / 262144), byte (0x80 + n / 4096 % 64), byte (0x80 + n / 64 % 64), byte (0x80 + n % 64)]

/-- `s.encode()` -/
def utf8Enc (s : Str) : Bytes := s.flatMap utf8Char

/-- a continuation octet -/
def isCont (b : UInt8) : Bool := Nat.ble 0x80 b.toNat && Nat.blt b.toNat 0xC0

/-- `b.decode('utf-8')`; `none` is `UnicodeDecodeError`: over-long forms, surrogates, values above U+10FFFF, stray or missing
continuation octets. -/
def utf8Dec : Bytes → Option Str
  | [] => some []
  | a :: t1 =>
    if a.toNat < 0x80 then (utf8Dec t1).map (Char.ofNat a.toNat :: ·)
    else match t1 with
      | [] => none
      | b :: t2 =>
        if !isCont b then none
        else if 0xC2 ≤ a.toNat ∧ a.toNat < 0xE0 then
          (utf8Dec t2).map (Char.ofNat ((a.toNat - 0xC0) * 64 + (b.toNat - 0x80)) :: ·)
        else match t2 with
          | [] => none
          | c :: t3 =>
            if !isCont c then none
            else if 0xE0 ≤ a.toNat ∧ a.toNat < 0xF0 then
              let n := (a.toNat - 0xE0) * 4096 + (b.toNat - 0x80) * 64 + (c.toNat - 0x80)
              if 0x800 ≤ n ∧ (n < 0xD800 ∨ 0xE000 ≤ n) then (utf8Dec t3).map (Char.ofNat n :: ·) else none
            else match t3 with
              | [] => none
              | d :: t4 =>
                if !isCont d then none
                else if 0xF0 ≤ a.toNat ∧ a.toNat < 0xF5 then
                  let n := (a.toNat - 0xF0) * 262144 + (b.toNat - 0x80) * 4096 + (c.toNat - 0x80) * 64 + (d.toNat - 0x80)
                  if 0x10000 ≤ n ∧ n < 0x110000 then (utf8Dec t4).map (Char.ofNat n :: ·) else none
                else none

/-- RFC 4648 table 1: the digit of a 6-bit value -/
def b64Char (n : Nat) : Char :=
  if n < 26 then Char.ofNat (65 + n)
  else if n < 52 then Char.ofNat (97 + (n - 26))
  else if n < 62 then Char.ofNat (48 + (n - 52))
  else if n = 62 then '+' else '/'

/-- the value of a base64 digit; `none` for other characters (and for `=`) -/
def b64Val (c : Char) : Option Nat :=
  let n := c.toNat
  if 65 ≤ n ∧ n < 91 then some (n - 65)
  else if 97 ≤ n ∧ n < 123 then some (n - 97 + 26)
  else if 48 ≤ n ∧ n < 58 then some (n - 48 + 52)
  else if n = 43 then some 62
  else if n = 47 then some 63
  else none

/-- `b64encode(b).decode('ascii')`, RFC 4648 section 4 -/
def b64Enc : Bytes → Str
  | a :: b :: c :: t =>
    b64Char (a.toNat / 4) :: b64Char (a.toNat % 4 * 16 + b.toNat / 16) ::
    b64Char (b.toNat % 16 * 4 + c.toNat / 64) :: b64Char (c.toNat % 64) :: b64Enc t
  | [a, b] => [b64Char (a.toNat / 4), b64Char (a.toNat % 4 * 16 + b.toNat / 16), b64Char (b.toNat % 16 * 4), '=']
  | [a] => [b64Char (a.toNat / 4), b64Char (a.toNat % 4 * 16), '=', '=']
  | [] => []

/-- the loop of CPython's `binascii.a2b_base64` in its non-strict mode: characters outside the alphabet are skipped, enough
padding ends the data whatever follows, and a data length that is no multiple of four digits is an error.
`q` is the position in the quartet, `left` the bits not yet emitted, `pads` the padding characters seen in a row. -/
def a2b (q left pads : Nat) (out : Bytes) : Str → Option Bytes
  | [] => if q = 0 then some out else none
  | ch :: t =>
    if ch = '=' then
      if q ≥ 2 then
        if q + (pads + 1) ≥ 4 then some out else a2b q left (pads + 1) out t
      else a2b q left pads out t
    else match b64Val ch with
      | none => a2b q left pads out t
      | some v =>
        match q with
        | 0 => a2b 1 v 0 out t
        | 1 => a2b 2 (v % 16) 0 (out ++ [byte (left * 4 + v / 16)]) t
        | 2 => a2b 3 (v % 4) 0 (out ++ [byte (left * 16 + v / 4)]) t
        | _ => a2b 0 0 0 (out ++ [byte (left * 64 + v)]) t

/-- `b64decode(s)` of a `str`: `ValueError` for non-ASCII text, `binascii.Error` (a `ValueError`) for bad padding -/
def b64Dec (s : Str) : Except Err Bytes :=
  if s.all (fun c => Nat.blt c.toNat 128) then
    match a2b 0 0 0 [] s with
    | some b => .ok b
    | none => .error .valueError
  else .error .valueError

end Codec
end Laurelin
