import Verif.Model.Ldif
import Verif.Spec.Rfc4517
/-!
RFC 2849 (LDIF), the parts the properties speak about: what a text means, independently of the code that writes or reads it.
UTF-8 and base64 are the ones of `Model/Codec.lean` (RFC 3629, RFC 4648).
-/
namespace Laurelin.Spec.Ldif
open Laurelin

/-- `SAFE-CHAR = %x01-09 / %x0B-0C / %x0E-7F` -/
def safeChar (c : Char) : Prop :=
  (0x01 ≤ c.toNat ∧ c.toNat ≤ 0x09) ∨ (0x0B ≤ c.toNat ∧ c.toNat ≤ 0x0C) ∨ (0x0E ≤ c.toNat ∧ c.toNat ≤ 0x7F)

/-- `SAFE-INIT-CHAR`: a `SAFE-CHAR` other than SPACE, `:` and `<` -/
def safeInitChar (c : Char) : Prop := safeChar c ∧ c ≠ ' ' ∧ c ≠ ':' ∧ c ≠ '<'

/-- `SAFE-STRING = [SAFE-INIT-CHAR *SAFE-CHAR]` -/
def SafeString (s : Str) : Prop := (∀ c ∈ s, safeChar c) ∧ ∀ c, s.head? = some c → safeInitChar c

/-- the octets of an attribute value -/
def octets : LVal → Bytes
  | .text s => Codec.utf8Enc s
  | .bin b => b

/-- `attrval-spec`: the logical line gives the attribute the value with these octets.
`value-spec = ":" (FILL [SAFE-STRING] / ":" FILL BASE64-STRING)`, `FILL = *SPACE`. (URLs, `:<`, are left out.) -/
inductive Reads (line attr : Str) (value : Bytes) : Prop
  | clear (fill s : Str) (hf : ∀ c ∈ fill, c = ' ') (hs : SafeString s) (hl : line = attr ++ ':' :: (fill ++ s))
      (hv : value = Codec.utf8Enc s)
  | base64 (fill : Str) (hf : ∀ c ∈ fill, c = ' ') (hl : line = attr ++ ':' :: ':' :: (fill ++ Codec.b64Enc value))

/-- the physical lines of a text -/
def physical (text : Str) : List Str := pySplit '\n' text

/-- note 2 of the RFC, read from the end: the continuation text that belongs to the line before, and the logical lines -/
def joinLines : List Str → Str × List Str
  | [] => ([], [])
  | l :: rest =>
    match l with
    | ' ' :: t => (t ++ (joinLines rest).1, (joinLines rest).2)
    | l => ([], (l ++ (joinLines rest).1) :: (joinLines rest).2)

/-- the logical lines: a line beginning with a space continues the line before, without that space -/
def logical (text : Str) : List Str := (joinLines (physical text)).2

/-! ### Change records (`ldif-changes`) -/

/-- a value with the choice how to write it -/
structure Item where
  value : Str
  b64 : Bool
  deriving DecidableEq

/-- `value-spec` -/
def Item.spec (i : Item) : Str :=
  if i.b64 then str ": " ++ Codec.b64Enc (Codec.utf8Enc i.value) else ' ' :: i.value

/-- the value handed on for octets: text if they are UTF-8 -/
def valueOf (b : Bytes) : LVal :=
  match Codec.utf8Dec b with
  | some s => .text s
  | none => .bin b

/-- the value of an attribute: text, or any octets, which are written in base64 -/
inductive Datum where
  | text (i : Item)
  | octets (b : Bytes)
  deriving DecidableEq

def Datum.spec : Datum → Str
  | .text i => i.spec
  | .octets b => str ": " ++ Codec.b64Enc b

/-- what is handed on -/
def Datum.value : Datum → LVal
  | .text i => .text i.value
  | .octets b => valueOf b

/-- `mod-spec` -/
structure ModSpec where
  op : ModOp
  name : Str
  vals : List Item
  deriving DecidableEq

/-- `changerecord` -/
inductive Change where
  | add (attrs : List (Str × Datum))
  | delete
  | modify (mods : List ModSpec)
  | rename (moddn : Bool) (newrdn : Item) (deleteold : Bool) (newsuperior : Option Item)
  deriving DecidableEq

/-- `control`, with its value in base64 (a control value is arbitrary octets) -/
structure Ctl where
  oid : Str
  crit : Option Bool
  value : Bytes
  deriving DecidableEq

def Ctl.line (c : Ctl) : Str :=
  str "control: " ++ c.oid ++ (match c.crit with | none => [] | some true => str " true" | some false => str " false") ++ str ":: " ++ Codec.b64Enc c.value

/-- `ldif-change-record` -/
structure Record where
  dn : Item
  controls : List Ctl
  change : Change
  deriving DecidableEq

def opName : ModOp → Str
  | .add => str "add"
  | .replace => str "replace"
  | .delete => str "delete"

def ModSpec.lines (m : ModSpec) : List Str :=
  (opName m.op ++ str ": " ++ m.name) :: m.vals.map (fun i => m.name ++ ':' :: i.spec) ++ [str "-"]

def supLines : Option Item → List Str
  | none => []
  | some p => [str "newsuperior:" ++ p.spec]

def Change.lines : Change → List Str
  | .add attrs => str "changetype: add" :: attrs.map (fun ai => ai.1 ++ ':' :: ai.2.spec)
  | .delete => [str "changetype: delete"]
  | .modify mods => str "changetype: modify" :: mods.flatMap ModSpec.lines
  | .rename moddn newrdn deleteold newsuperior =>
    [if moddn then str "changetype: moddn" else str "changetype: modrdn", str "newrdn:" ++ newrdn.spec,
     if deleteold then str "deleteoldrdn: 1" else str "deleteoldrdn: 0"] ++
    supLines newsuperior

/-- the logical lines of a record -/
def Record.lines (r : Record) : List Str := (str "dn:" ++ r.dn.spec) :: (r.controls.map Ctl.line ++ r.change.lines)

/-- records, each followed by some newlines -/
def body : List (Record × Nat) → Str
  | [] => []
  | (r, k) :: rest => pyJoin ['\n'] r.lines ++ List.replicate k '\n' ++ body rest

/-- a file: optionally the version line, then the records -/
def file (version : Bool) (l : List (Record × Nat)) : Str := (if version then str "version: 1\n" else []) ++ body l

/-- records are separated by at least one empty line; the last one may end in any number of newlines -/
def Separated : List (Record × Nat) → Prop
  | [] => True
  | [_] => True
  | (_, k) :: b :: rest => 2 ≤ k ∧ Separated (b :: rest)

/-- `FoldOf text s`: `text` is `s` with its lines folded, wherever one likes -/
inductive FoldOf : Str → Str → Prop
  | nil : FoldOf [] []
  | char (c : Char) {t s : Str} : FoldOf t s → FoldOf (c :: t) (c :: s)
  | fold {t s : Str} : FoldOf t s → FoldOf ('\n' :: ' ' :: t) s

/-- the control keywords of a call: each control whose OID is registered goes under its keyword, with its value and with the criticality
the record states; of several for the same keyword the last counts -/
def CtrlsMean (env : Laurelin.Ldif.Env) (cs : List Ctl) (kwds : PDict Str Laurelin.Ldif.Ctrl) : Prop :=
  (kwds.map Prod.fst).Nodup ∧ ∀ kw, kwds.get? kw = ((cs.filter (fun c => env.keyword c.oid = some kw)).getLast?).map (fun c => ⟨valueOf c.value, c.crit⟩)

/-- a control that is known, or need not be -/
def Supported (env : Laurelin.Ldif.Env) (c : Ctl) : Prop := env.keyword c.oid ≠ none ∨ c.crit.getD env.defaultCrit = false

/-- the call a record describes -/
def Means (env : Laurelin.Ldif.Env) (r : Record) (op : Laurelin.Ldif.Op) : Prop :=
  match r.change, op with
  | .add attrs, .add dn d ctrls =>
    dn = .text r.dn.value ∧ CtrlsMean env r.controls ctrls ∧ (d.map Prod.fst).Nodup ∧ (∀ kv ∈ d, kv.2 ≠ []) ∧
      ∀ a, (d.get? a).getD [] = (attrs.filter (fun ai => ai.1 = a)).map (fun ai => ai.2.value)
  | .delete, .delete dn ctrls => dn = .text r.dn.value ∧ CtrlsMean env r.controls ctrls
  | .modify mods, .modify dn ms ctrls =>
    dn = .text r.dn.value ∧ CtrlsMean env r.controls ctrls ∧
      ms = mods.map (fun m => ⟨m.op, m.name, .list (m.vals.map (fun i => .text i.value))⟩)
  | .rename _ rdn del sup, .modDn dn nr clean par ctrls =>
    dn = .text r.dn.value ∧ CtrlsMean env r.controls ctrls ∧ nr = .text rdn.value ∧ clean = del ∧ par = sup.map (fun i => .text i.value)
  | _, _ => False

/-- one call per record, in order -/
def MeansAll (env : Laurelin.Ldif.Env) : List Record → List Laurelin.Ldif.Op → Prop
  | [], [] => True
  | r :: rs, op :: ops => Means env r op ∧ MeansAll env rs ops
  | _, _ => False

/-- carrying out calls in order, up to the first failure: the calls made, the final state, the results -/
def runOps {σ ρ : Type} (exec : σ → Laurelin.Ldif.Op → σ × Except Err ρ) :
    σ → List Laurelin.Ldif.Op → (List Laurelin.Ldif.Op × σ) × Except Err (List ρ)
  | st, [] => (([], st), .ok [])
  | st, op :: rest =>
    match exec st op with
    | (st', .error e) => (([op], st'), .error e)
    | (st', .ok x) =>
      let out := runOps exec st' rest
      match out.2 with
      | .error e => ((op :: out.1.1, out.1.2), .error e)
      | .ok xs => ((op :: out.1.1, out.1.2), .ok (x :: xs))

/-- white space, line boundaries: what Python's `strip` and `splitlines` react to -/
def isSpace (c : Char) : Prop := inClass pySpace c = true

/-- the values for which the reader is right: no white space at the ends; and, when written in clear, not empty, no line boundary,
no leading colon, and no `:<` -/
def Item.Good (i : Item) : Prop :=
  (∀ c, i.value.head? = some c → ¬ isSpace c) ∧ (∀ c, i.value.getLast? = some c → ¬ isSpace c) ∧
  (i.b64 = false → i.value ≠ [] ∧ i.value.head? ≠ some ':' ∧ (∀ c ∈ i.value, Laurelin.Ldif.isBreak c = false) ∧
    ∀ a b, i.value ≠ a ++ ':' :: '<' :: b)

/-- the same for any value; of octets that are not UTF-8, no blank (space, tab, line feed, vertical tab, form feed, carriage return) at the ends -/
def Datum.Good : Datum → Prop
  | .text i => i.Good
  | .octets b => (∀ s, Codec.utf8Dec b = some s → ∀ c, s.head? = some c ∨ s.getLast? = some c → ¬ isSpace c) ∧
      (Codec.utf8Dec b = none → ∀ x, b.head? = some x ∨ b.getLast? = some x → x ≠ 32 ∧ (x.toNat < 9 ∨ 13 < x.toNat))

/-- attribute names: no white space, colon or semicolon, and not the mark of a comment -/
def GoodName (a : Str) : Prop := a ≠ [] ∧ a.head? ≠ some '#' ∧ ∀ c ∈ a, ¬ isSpace c ∧ c ≠ ':' ∧ c ≠ ';'

/-- the records for which the reader is right. In `modify` records values must be in clear and without a colon. -/
def Record.Good (r : Record) : Prop :=
  r.dn.Good ∧ (∀ c ∈ r.controls, Rfc4517.numericoid c.oid) ∧
  match r.change with
  | .add attrs => ∀ ai ∈ attrs, GoodName ai.1 ∧ ai.2.Good
  | .delete => True
  | .modify mods => ∀ m ∈ mods, GoodName m.name ∧ (m.op = .add → m.vals ≠ []) ∧
      ∀ i ∈ m.vals, i.Good ∧ i.b64 = false ∧ ':' ∉ i.value
  | .rename _ rdn _ sup => rdn.Good ∧ ∀ p, sup = some p → p.Good

end Laurelin.Spec.Ldif
