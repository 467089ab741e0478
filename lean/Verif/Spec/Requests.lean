import Verif.Spec.Rfc4511
import Verif.Model.Rfc4511
/-!
Specification: the message of RFC 4511 that each call stands for. Text is UTF-8 (RFC 4511 4.1.2); scopes, alias handling and modification types have the numbers of 4.5.1 and 4.6;
binds are for version 3 (4.2), and a SASL bind has an empty name.
-/
namespace Laurelin.Spec.Wire
open Laurelin Codec

def ofSub : Laurelin.Sub → Sub
  | .initial s => .initial (utf8Enc s)
  | .any s => .any (utf8Enc s)
  | .final s => .final (utf8Enc s)

mutual
def ofFilter : Laurelin.Filter → Filter
  | .and l => .and (ofFilters l)
  | .or l => .or (ofFilters l)
  | .not f => .not (ofFilter f)
  | .equality a v => .equalityMatch (utf8Enc a) (utf8Enc v)
  | .approx a v => .approxMatch (utf8Enc a) (utf8Enc v)
  | .greaterOrEqual a v => .greaterOrEqual (utf8Enc a) (utf8Enc v)
  | .lessOrEqual a v => .lessOrEqual (utf8Enc a) (utf8Enc v)
  | .present a => .present (utf8Enc a)
  | .substrings a l => .substrings (utf8Enc a) (l.map ofSub)
  | .extensible rule attr v dn => .extensibleMatch (rule.map utf8Enc) (attr.map utf8Enc) (utf8Enc v) dn
def ofFilters : List Laurelin.Filter → List Filter
  | [] => []
  | f :: l => ofFilter f :: ofFilters l
end

def scopeNumber : Scope → Option Int
  | .base => some 0
  | .one => some 1
  | .sub => some 2
  | .other => none

def modNumber : ModOp → Int
  | .add => 0
  | .delete => 1
  | .replace => 2

def ofAttr (p : Str × List Rfc4511.AVal) : Attr := ⟨utf8Enc p.1, p.2.map (·.bytes)⟩

/-- what the call asks for; nothing when the scope is none of the three -/
def asks : Rfc4511.Call → Option Op
  | .simpleBind u p => some (.bindRequest 3 (utf8Enc u) (.simple (utf8Enc p)))
  | .saslBind m r => some (.bindRequest 3 [] (.sasl (utf8Enc m) (r.map (·.bytes))))
  | .unbind => some .unbindRequest
  | .search q => (scopeNumber q.scope).map (fun s =>
      .searchRequest (utf8Enc q.base) s q.deref q.limit q.timeout q.typesOnly (ofFilter q.filter) (q.attrs.map utf8Enc))
  | .compare d a v => some (.compareRequest (utf8Enc d) (utf8Enc a) (utf8Enc v))
  | .add d l => some (.addRequest (utf8Enc d) (l.map ofAttr))
  | .delete d => some (.delRequest (utf8Enc d))
  | .modDn q => some (.modDNRequest (utf8Enc q.dn) (utf8Enc q.newRdn) q.deleteOld (q.newSuperior.map utf8Enc))
  | .modify q => some (.modifyRequest (utf8Enc q.dn) (q.changes.map (fun c => (modNumber c.op, ofAttr (c.attr, c.vals)))))
  | .extended o v => some (.extendedReq (utf8Enc o) (v.map (·.bytes)))
  | .abandon i => some (.abandonRequest i)

def ofControl (w : Controls.Wire) : Control := ⟨utf8Enc w.oid, w.critical, w.value.map (fun l => l.map byte)⟩

/-- the message: this ID, what the call asks for, these controls -/
def message (mid : Int) (op : Op) (ctrls : Option (List Controls.Wire)) : Message := ⟨mid, op, ctrls.map (fun l => l.map ofControl)⟩

/-- the LDAPResult of a response -/
def Op.result? : Op → Option Result
  | .bindResponse r _ => some r
  | .searchResDone r => some r
  | .modifyResponse r => some r
  | .addResponse r => some r
  | .delResponse r => some r
  | .modDNResponse r => some r
  | .compareResponse r => some r
  | .extendedResp r _ _ => some r
  | _ => none

/-- octets as the caller sees them: text if they are UTF-8, else the octets -/
def Shows (b : Bytes) : Rfc4511.AVal → Prop
  | .text s => b = utf8Enc s
  | .raw c => c = b ∧ ∀ s, b ≠ utf8Enc s

/-- a response control whose type is ASCII text and whose value are octets -/
def PlainControl (w : Controls.Wire) : Prop := (∀ c ∈ w.oid, c.toNat < 128) ∧ ∀ v, w.value = some v → ∀ n ∈ v, n < 256

mutual
/-- nothing in it is TRUE -/
def Filter.noTrue : Filter → Bool
  | .and l => noTrues l
  | .or l => noTrues l
  | .not f => f.noTrue
  | .extensibleMatch _ _ _ dn => !dn
  | _ => true
def noTrues : List Filter → Bool
  | [] => true
  | f :: l => f.noTrue && noTrues l
end

def Op.noTrue : Op → Bool
  | .searchRequest _ _ _ _ _ t f _ => !t && f.noTrue
  | .modDNRequest _ _ d _ => !d
  | _ => true

def Message.noTrue (m : Message) : Bool := m.op.noTrue && (m.controls.getD []).all (fun c => !c.critical)

end Laurelin.Spec.Wire
