import Verif.Model.Ldif
import Verif.Model.Transaction
/-!
`ModTransactionObject.format_mod_ldif` (laurelin/ldap/ldapobject.py:633-645): the staged changes as LDIF.
-/
namespace Laurelin.TransLdif
open Laurelin

/-- a hexadecimal digit, as `repr` writes it -/
def hexDigit (n : Nat) : Char := Char.ofNat (if n < 10 then 48 + n else 87 + n)

/-- one octet inside `repr(b)`; `q` is the quote character (Python builtin) -/
def reprOctet (q : Char) (b : UInt8) : Str :=
  let c := Char.ofNat b.toNat
  if c = q ∨ c = '\\' then ['\\', c]
  else if c = '\t' then str "\\t"
  else if c = '\n' then str "\\n"
  else if c = '\r' then str "\\r"
  else if b.toNat < 0x20 ∨ 0x7f ≤ b.toNat then ['\\', 'x', hexDigit (b.toNat / 16), hexDigit (b.toNat % 16)]
  else [c]

/-- `repr(b)` of `bytes`, which is what `'{0}'.format(b)` gives (Python 3 builtin): `b'…'`, or `b"…"` when there is a `'` and no `"` -/
def bytesRepr (b : Bytes) : Str :=
  let q := if (39 : UInt8) ∈ b ∧ ¬ (34 : UInt8) ∈ b then '"' else '\''
  'b' :: q :: (b.flatMap (reprOctet q) ++ [q])

/-- ldapobject.py:643: a value put into the text by `format` -/
def shown : LVal → Str
  | .text s => s
  | .bin b => bytesRepr b

/-- ldapobject.py:641: `Mod.op_to_string(mod.op).lower()` (modify.py:16-26) -/
def opText : ModOp → Str
  | .add => str "add"
  | .replace => str "replace"
  | .delete => str "delete"

/-- ldapobject.py:640-644: the text of one staged change. Iterating `DELETE_ALL` is a `TypeError` (constants.py:42-57). -/
def modText (m : Mod LVal) : Except Err Str :=
  match m.vals.iter with
  | .error e => .error e
  | .ok vs => .ok (opText m.op ++ str ": " ++ m.attr ++ ['\n'] ++ vs.flatMap (fun v => m.attr ++ str ": " ++ shown v ++ ['\n']) ++ str "-\n")

/-- ldapobject.py:640-645: the loop, with the text so far -/
def modTexts (acc : Str) : List (Mod LVal) → Except Err Str
  | [] => .ok acc
  | m :: rest =>
    match modText m with
    | .error e => .error e
    | .ok t => modTexts (acc ++ t) rest

/-- ldapobject.py:633-645 `format_mod_ldif` (for an object with a DN; after `delete` it would be the text "None") -/
def formatModLdif (dn : Str) (staged : List (Mod LVal)) : Except Err Str :=
  modTexts (str "dn: " ++ dn ++ str "\nchangetype: modify\n") staged

end Laurelin.TransLdif
