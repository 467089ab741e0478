import Verif.Model.Codec
import Verif.Model.Syntax
import Verif.Model.Modify
/-!
LDIF: `LDAPObject.format_ldif` (laurelin/ldap/ldapobject.py:245-293) and `LDAP.process_ldif` (laurelin/ldap/base.py:1242-1477).
-/
namespace Laurelin

/-- an attribute value: `str` or `bytes` -/
inductive LVal where
  | text (s : Str)
  | bin (b : Bytes)
  deriving DecidableEq, Repr

namespace Ldif
open Laurelin.Codec

/-! ### Writing -/

/-- the first class of ldapobject.py:255 -/
def reInit (c : Char) : Bool :=
  let n := c.toNat
  (Nat.ble 0x01 n && Nat.ble n 0x09) || (Nat.ble 0x0b n && Nat.ble n 0x0c) || (Nat.ble 0x0e n && Nat.ble n 0x1f) ||
  (Nat.ble 0x21 n && Nat.ble n 0x39) || n == 0x3b || (Nat.ble 0x3d n && Nat.ble n 0x7f)
/-- the second class of ldapobject.py:255 -/
def reSafe (c : Char) : Bool :=
  let n := c.toNat
  (Nat.ble 0x01 n && Nat.ble n 0x09) || (Nat.ble 0x0b n && Nat.ble n 0x0c) || (Nat.ble 0x0e n && Nat.ble n 0x7f)
/-- ldapobject.py:255 -/
def reClear : Rx := .cat [.cls reInit, .star (.cls reSafe)]

/-- ldapobject.py:251-252 `b64ascii` -/
def b64ascii (s : Str) : Str := b64Enc (utf8Enc s)

/-- ldapobject.py:254-267 `encode_value` -/
def encodeValue (v : Str) : Str :=
  if !reClear.anchored v then str ": " ++ b64ascii v
  else if endsWith v [' '] then str ": " ++ b64ascii v
  else ' ' :: v

/-- ldapobject.py:271-277: the logical line of one value -/
def attrLine (attr : Str) (v : LVal) : Str :=
  match v with
  | .text s => attr ++ ':' :: encodeValue s
  | .bin b =>
    match utf8Dec b with
    | some s => attr ++ ':' :: encodeValue s
    | none => attr ++ str ":: " ++ b64Enc b

/-- ldapobject.py:287-289, the loop cutting `line[n:n+75]`; the first argument bounds the rounds (the length suffices). -/
def chunks75 : Nat → Str → List Str
  | 0, _ => []
  | _ + 1, [] => []
  | f + 1, c :: t => (c :: t).take 75 :: chunks75 f ((c :: t).drop 75)

/-- ldapobject.py:278-292: the line as written, without the final newline -/
def foldLine (line : Str) : Str :=
  if line.length > 76 then
    line.take 76 ++ str "\n " ++ pyJoin (str "\n ") (chunks75 line.length (line.drop 76))
  else line

/-- ldapobject.py:269: the DN line (it is not folded) -/
def dnLine (dn : Str) : Str := str "dn:" ++ encodeValue dn

/-- ldapobject.py:245-293 `format_ldif`; `attrs` is what `iterattrs` yields. -/
def formatLdif (dn : Str) (attrs : List (Str × LVal)) : Str :=
  dnLine dn ++ ['\n'] ++ attrs.flatMap (fun av => foldLine (attrLine av.1 av.2) ++ ['\n'])

/-! ### Reading -/

/-- base.py:1260 `re.sub(r'(\n|\r\n) ', '', s)` -/
def unfold : Str → Str
  | [] => []
  | a :: t1 =>
    if a = '\n' then
      match t1 with
      | [] => [a]
      | b :: t2 => if b = ' ' then unfold t2 else a :: unfold (b :: t2)
    else if a = '\r' then
      match t1 with
      | [] => [a]
      | b :: t2 =>
        if b = '\n' then
          match t2 with
          | [] => [a, b]
          | c :: t3 => if c = ' ' then unfold t3 else a :: b :: unfold (c :: t3)
        else a :: unfold (b :: t2)
    else a :: unfold t1

/-- base.py:1263-1266: does `:<([^\n]+)` match anywhere? Then `': ' + u.read()` adds `bytes` to `str`, a `TypeError` (Python 3), or
`urlopen` itself has failed: no text with a match gets any further. -/
def hasUrl : Str → Bool
  | [] => false
  | a :: t =>
    (match a, t with
     | ':', '<' :: c :: _ => c != '\n'
     | _, _ => false) || hasUrl t

/-- `str.splitlines`: the line boundaries besides `\r\n` (Python builtin) -/
def isBreak (c : Char) : Bool :=
  c == '\n' || c == '\r' || c == '\x0b' || c == '\x0c' || c == '\x1c' || c == '\x1d' || c == '\x1e' || c == '\x85' ||
  c == '\u2028' || c == '\u2029'

/-- `s.splitlines(keep)`; `cur` is the line read so far -/
def splitLinesGo (keep : Bool) (cur : Str) : Str → List Str
  | [] => if cur = [] then [] else [cur]
  | a :: t =>
    if a = '\r' then
      match t with
      | [] => [if keep then cur ++ [a] else cur]
      | b :: t2 =>
        if b = '\n' then (if keep then cur ++ [a, b] else cur) :: splitLinesGo keep [] t2
        else (if keep then cur ++ [a] else cur) :: splitLinesGo keep [] (b :: t2)
    else if isBreak a then (if keep then cur ++ [a] else cur) :: splitLinesGo keep [] t
    else splitLinesGo keep (cur ++ [a]) t

/-- `s.splitlines(keep)` -/
def splitLines (keep : Bool) (s : Str) : List Str := splitLinesGo keep [] s

/-- `s.strip()` -/
def strip (s : Str) : Str := pyStrip (inClass pySpace) s

/-- the octets `bytes.strip()` removes (Python builtin) -/
def isByteSpace (b : UInt8) : Bool := b == 32 || (Nat.ble 9 b.toNat && Nat.ble b.toNat 13)

/-- `v.strip()` of a `str` or of `bytes` -/
def _root_.Laurelin.LVal.strip : LVal → LVal
  | .text s => .text (Ldif.strip s)
  | .bin b => .bin (((b.dropWhile isByteSpace).reverse.dropWhile isByteSpace).reverse)

/-- base.py:1268-1270 `clear_comments` -/
def clearComments : List Str → List Str
  | [] => []
  | l :: t => if startsWith (strip l) ['#'] then clearComments t else l :: t

/-- base.py:1272-1278 `handle_base64` -/
def handleBase64 (v : Str) : Except Err LVal :=
  match b64Dec (strip (v.drop 1)) with
  | .error e => .error e
  | .ok b =>
    match utf8Dec b with
    | some s => .ok (.text s)
    | none => .ok (.bin b)

/-- `if v[0] == ':': v = handle_base64(v)` (base.py:1308, 1361, 1421, 1442, 1466) -/
def readVal (v : Str) : Except Err LVal :=
  match v with
  | [] => .error .indexError
  | c :: t => if c = ':' then handleBase64 (c :: t) else .ok (.text (c :: t))

/-- base.py:1281-1291: the version line is checked and removed -/
def versionRest (s : Str) : Except Err Str :=
  match clearComments (splitLines true s) with
  | [] => .error .indexError
  | l :: rest =>
    if startsWith l (str "version:") then
      if strip (l.drop 8) ≠ str "1" then .error .ldapSupport else .ok rest.flatten
    else .ok (l :: rest).flatten

/-- base.py:1294 `re.split(r'(?:\n|\r\n){2,}', s)`: a run of newlines (`pend`) separates records when it has two or more of them -/
def splitRecords (cur : Str) (pend : List Str) : Str → List Str
  | [] => if pend.length ≥ 2 then [cur, []] else [cur ++ pend.flatten]
  | a :: t =>
    if a = '\n' then splitRecords cur (pend ++ [[a]]) t
    else if a = '\r' then
      match t with
      | [] => if pend.length ≥ 2 then [cur, [a]] else [cur ++ pend.flatten ++ [a]]
      | b :: t2 =>
        if b = '\n' then splitRecords cur (pend ++ [[a, b]]) t2
        else if pend.length ≥ 2 then cur :: splitRecords [a] [] (b :: t2)
        else splitRecords (cur ++ pend.flatten ++ [a]) [] (b :: t2)
    else if pend.length ≥ 2 then cur :: splitRecords [a] [] t
    else splitRecords (cur ++ pend.flatten ++ [a]) [] t

/-- a control as passed to the operation: the value, marked critical or optional when the record says so (base.py:1327-1333) -/
structure Ctrl where
  value : LVal
  crit : Option Bool
  deriving DecidableEq, Repr

/-- the call made for one record -/
inductive Op where
  | add (dn : LVal) (attrs : PDict Str (List LVal)) (ctrls : PDict Str Ctrl)
  | delete (dn : LVal) (ctrls : PDict Str Ctrl)
  | modify (dn : LVal) (mods : List (Mod LVal)) (ctrls : PDict Str Ctrl)
  | modDn (dn rdn : LVal) (clean : Bool) (parent : Option LVal) (ctrls : PDict Str Ctrl)
  deriving DecidableEq, Repr

/-- base.py:1318 the groups `oid`, `crit`, `value` of the control expression -/
def ctrlParts (s : Str) : Option (Str × Option Bool × Str) :=
  let isOid := fun c => Syntax.digit c || c == '.'
  let oid := s.takeWhile isOid
  let rest := s.dropWhile isOid
  if !Syntax.numericoid.full oid then none
  else
    let cr : Option Bool × Str :=
      if startsWith rest (str " true") then (some true, rest.drop 5)
      else if startsWith rest (str " false") then (some false, rest.drop 6)
      else (none, rest)
    match cr.2 with
    | ':' :: c :: t => if c = '\n' ∨ '\n' ∈ t then none else some (oid, cr.1, ':' :: c :: t)
    | _ => none

/-- what the connection contributes: base.py:1335 `default_criticality`, and the keyword of a registered control
(base.py:1338) -/
structure Env where
  defaultCrit : Bool
  keyword : Str → Option Str

/-- base.py:1312-1344: the controls of a record -/
def readControls (env : Env) (acc : PDict Str Ctrl) : List Str → Except Err (PDict Str Ctrl × List Str)
  | l :: m :: rest =>
    if startsWith l (str "control:") then
      match ctrlParts (strip (l.drop 8)) with
      | none => .error .valueError
      | some (oid, crit, value) =>
        match readVal value with
        | .error e => .error e
        | .ok v =>
          let criticality := match crit with
            | some c => c
            | none => env.defaultCrit
          match env.keyword oid with
          | none => if criticality then .error .ldapSupport else readControls env acc (m :: rest)
          | some kw => readControls env (acc.set kw ⟨v, crit⟩) (m :: rest)
    else .ok (acc, l :: m :: rest)
  | lines => .ok (acc, lines)

/-- base.py:1355-1378: the attributes of an `add` record -/
def readAttrs (acc : PDict Str (List LVal)) : List Str → Except Err (PDict Str (List LVal))
  | [] => .ok acc
  | l :: rest =>
    let line := strip l
    if startsWith line ['#'] then readAttrs acc rest
    else match splitFirst ':' line with
      | none => .error .valueError
      | some (attr, val) =>
        match readVal val with
        | .error e => .error e
        | .ok v =>
          if (pySplit ';' attr).length > 1 then .error .ldapError
          else readAttrs (acc.set attr (((acc.get? attr).getD []) ++ [v.strip])) rest

/-- modify.py:28-38 `Mod.string` -/
def modOpOf (s : Str) : Except Err ModOp :=
  if s = str "add" then .ok .add
  else if s = str "replace" then .ok .replace
  else if s = str "delete" then .ok .delete
  else .error .valueError

/-- `a, b = line.split(':')` -/
def unpack2 (line : Str) : Except Err (Str × Str) :=
  match pySplit ':' line with
  | [a, b] => .ok (a, b)
  | _ => .error .valueError

/-- base.py:1384-1428: the modifications of a `modify` record. `cur` is the open operation with its attribute, `vals` the values
read for it. (base.py:1401 compares the operation with a string, so it never holds; `Modlist` refuses an empty `add` by
itself.) -/
def readMods (cur : Option (ModOp × Str)) (vals : List LVal) (acc : List (Mod LVal)) : List Str → Except Err (List (Mod LVal))
  | [] =>
    match cur with
    | none => .ok acc
    | some (op, attr) =>
      match modlist op [(attr, .vals (.list vals))] with
      | .error e => .error e
      | .ok ms => .ok (acc ++ ms)
  | l :: rest =>
    let line := strip l
    if startsWith line ['#'] then readMods cur vals acc rest
    else match cur with
      | none =>
        match unpack2 line with
        | .error e => .error e
        | .ok (o, a) =>
          match modOpOf o with
          | .error e => .error e
          | .ok op => readMods (some (op, strip a)) vals acc rest
      | some (op, attr) =>
        if line = ['-'] then
          match modlist op [(attr, .vals (.list vals))] with
          | .error e => .error e
          | .ok ms => readMods none [] (acc ++ ms) rest
        else if startsWith line attr then
          match unpack2 line with
          | .error e => .error e
          | .ok (a, val) =>
            if (pySplit ';' a).length > 1 then .error .ldapError
            else match readVal val with
              | .error e => .error e
              | .ok v => readMods (some (op, attr)) (vals ++ [v.strip]) acc rest
        else .error .valueError

/-- `if len(lines) >= 1 and lines[0].startswith(token): x = lines.popleft()[len(token):].strip()` -/
def popToken (token : Str) : List Str → Option (Str × List Str)
  | [] => none
  | l :: rest => if startsWith l token then some (strip (l.drop token.length), rest) else none

/-- base.py:1433-1472: the parameters of a `modrdn`/`moddn` record -/
def readModDn (lines : List Str) : Except Err (LVal × Bool × Option LVal) :=
  if lines.length < 2 then .error .valueError
  else match popToken (str "newrdn:") lines with
    | none => .error .valueError
    | some (r, l1) =>
      match readVal r with
      | .error e => .error e
      | .ok rdn =>
        match popToken (str "deleteoldrdn:") (clearComments l1) with
        | none => .error .valueError
        | some (d, l2) =>
          if d ≠ str "0" ∧ d ≠ str "1" then .error .valueError
          else match popToken (str "newsuperior:") (clearComments l2) with
            | none => .ok (rdn, d = str "1", none)
            | some (p, _) =>
              match readVal p with
              | .error e => .error e
              | .ok parent => .ok (rdn, d = str "1", some parent)

/-- base.py:1354-1475: the part of a record after its `changetype` line -/
def readBody (dn : LVal) (ctrls : PDict Str Ctrl) (changetype : Str) (lines : List Str) : Except Err Op :=
  if changetype = str "add" then
    match readAttrs [] lines with
    | .error e => .error e
    | .ok attrs => .ok (.add dn attrs ctrls)
  else if changetype = str "delete" then .ok (.delete dn ctrls)
  else if changetype = str "modify" then
    match readMods none [] [] lines with
    | .error e => .error e
    | .ok ms => .ok (.modify dn ms ctrls)
  else if changetype = str "modrdn" ∨ changetype = str "moddn" then
    match readModDn lines with
    | .error e => .error e
    | .ok (rdn, clean, parent) => .ok (.modDn dn rdn clean parent ctrls)
  else .error .valueError

/-- base.py:1300-1475: one record, given by its lines, up to the call it makes -/
def readLines (env : Env) (lines : List Str) : Except Err Op :=
  match popToken (str "dn:") (clearComments lines) with
  | none => .error .valueError
  | some (d, l1) =>
    match readVal d with
    | .error e => .error e
    | .ok dn =>
      match readControls env [] (clearComments l1) with
      | .error e => .error e
      | .ok (ctrls, l2) =>
        match popToken (str "changetype:") l2 with
        | none => .error .valueError
        | some (ct, l3) => readBody dn ctrls ct (clearComments l3)

/-- base.py:1297-1475 the loop over the records: each call is made before the next record is looked at, and the first failure ends
it. `exec` is the connection carrying out one call. The calls made are returned besides the outcome. -/
def runRecords {σ ρ : Type} (env : Env) (exec : σ → Op → σ × Except Err ρ) :
    σ → List Str → (List Op × σ) × Except Err (List ρ)
  | st, [] => (([], st), .ok [])
  | st, r :: rest =>
    if r = [] then runRecords env exec st rest
    else match readLines env (splitLines false r) with
      | .error e => (([], st), .error e)
      | .ok op =>
        match exec st op with
        | (st', .error e) => (([op], st'), .error e)
        | (st', .ok x) =>
          let out := runRecords env exec st' rest
          match out.2 with
          | .error e => ((op :: out.1.1, out.1.2), .error e)
          | .ok xs => ((op :: out.1.1, out.1.2), .ok (x :: xs))

/-- base.py:1242-1477 `process_ldif` -/
def processLdif {σ ρ : Type} (env : Env) (exec : σ → Op → σ × Except Err ρ) (st : σ) (text : Str) :
    (List Op × σ) × Except Err (List ρ) :=
  let s := unfold text
  if hasUrl s then (([], st), .error .typeError)
  else match versionRest s with
    | .error e => (([], st), .error e)
    | .ok rest => runRecords env exec st (splitRecords [] [] rest)

end Ldif
end Laurelin
