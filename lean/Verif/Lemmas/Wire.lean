import Verif.Lemmas.Asn1
import Verif.Spec.Requests
import Verif.Lemmas.Codec
/-! Lemmas: the declarations of rfc4511.py against the messages and encodings of the specification. -/
namespace Laurelin
namespace Wire
open Codec Asn1 Rfc4511
local notation "S.Sub" => Spec.Wire.Sub
local notation "S.Filter" => Spec.Wire.Filter
local notation "S.Auth" => Spec.Wire.Auth
local notation "S.Attr" => Spec.Wire.Attr
local notation "S.Result" => Spec.Wire.Result
local notation "S.Op" => Spec.Wire.Op
local notation "S.Control" => Spec.Wire.Control
local notation "S.Message" => Spec.Wire.Message

/-! ## Messages as pyasn1 values -/

def opt (o : Option Val) (r : Items) : Items := match o with
  | some v => .cons v r
  | none => .absent r

def listV (l : List Val) : Val := .list (Items.ofList l)
def oct (b : Bytes) : Val := .octets b

def subV : S.Sub → Val
  | .initial v => .choice (str "initial") (.octets v)
  | .any v => .choice (str "any") (.octets v)
  | .final v => .choice (str "final") (.octets v)

def avaV (a v : Bytes) : Val := .seq (.cons (.octets a) (.cons (.octets v) .nil))

mutual
def filterV : S.Filter → Val
  | .and l => .choice (str "and") (.list (filtersV l))
  | .or l => .choice (str "or") (.list (filtersV l))
  | .not f => .choice (str "not") (.choice (str "innerNotFilter") (filterV f))
  | .equalityMatch a v => .choice (str "equalityMatch") (avaV a v)
  | .substrings a l => .choice (str "substrings") (.seq (.cons (.octets a) (.cons (listV (l.map subV)) .nil)))
  | .greaterOrEqual a v => .choice (str "greaterOrEqual") (avaV a v)
  | .lessOrEqual a v => .choice (str "lessOrEqual") (avaV a v)
  | .present a => .choice (str "present") (.octets a)
  | .approxMatch a v => .choice (str "approxMatch") (avaV a v)
  | .extensibleMatch rule attr v dn => .choice (str "extensibleMatch") (.seq (opt (rule.map oct) (opt (attr.map oct) (.cons (.octets v) (.cons (.bool dn) .nil)))))
def filtersV : List S.Filter → Items
  | [] => .nil
  | f :: l => .cons (filterV f) (filtersV l)
end

def authV : S.Auth → Val
  | .simple p => .choice (str "simple") (.octets p)
  | .sasl m c => .choice (str "sasl") (.seq (.cons (.octets m) (opt (c.map oct) .nil)))

def attrV (a : S.Attr) : Val := .seq (.cons (.octets a.type) (.cons (listV (a.vals.map oct)) .nil))

def octs (l : List Bytes) : Val := listV (l.map oct)

def resultV (r : S.Result) (more : Items) : Val :=
  .seq (.cons (.int r.code) (.cons (.octets r.matchedDN) (.cons (.octets r.diagnostic) (opt (r.referral.map octs) more))))

def changeV (p : Int × S.Attr) : Val := .seq (.cons (.int p.1) (.cons (attrV p.2) .nil))

def opV : S.Op → Val
  | .bindRequest v n a => .choice (str "bindRequest") (.seq (.cons (.int v) (.cons (.octets n) (.cons (authV a) .nil))))
  | .bindResponse r c => .choice (str "bindResponse") (resultV r (opt (c.map oct) .nil))
  | .unbindRequest => .choice (str "unbindRequest") .null
  | .searchRequest b s d l t y f a => .choice (str "searchRequest") (.seq (.cons (.octets b) (.cons (.int s) (.cons (.int d) (.cons (.int l) (.cons (.int t)
      (.cons (.bool y) (.cons (filterV f) (.cons (octs a) .nil)))))))))
  | .searchResEntry n a => .choice (str "searchResEntry") (.seq (.cons (.octets n) (.cons (listV (a.map attrV)) .nil)))
  | .searchResDone r => .choice (str "searchResDone") (resultV r .nil)
  | .searchResRef l => .choice (str "searchResRef") (octs l)
  | .modifyRequest o l => .choice (str "modifyRequest") (.seq (.cons (.octets o) (.cons (listV (l.map changeV)) .nil)))
  | .modifyResponse r => .choice (str "modifyResponse") (resultV r .nil)
  | .addRequest e a => .choice (str "addRequest") (.seq (.cons (.octets e) (.cons (listV (a.map attrV)) .nil)))
  | .addResponse r => .choice (str "addResponse") (resultV r .nil)
  | .delRequest e => .choice (str "delRequest") (.octets e)
  | .delResponse r => .choice (str "delResponse") (resultV r .nil)
  | .modDNRequest e n d s => .choice (str "modDNRequest") (.seq (.cons (.octets e) (.cons (.octets n) (.cons (.bool d) (opt (s.map oct) .nil)))))
  | .modDNResponse r => .choice (str "modDNResponse") (resultV r .nil)
  | .compareRequest e a v => .choice (str "compareRequest") (.seq (.cons (.octets e) (.cons (avaV a v) .nil)))
  | .compareResponse r => .choice (str "compareResponse") (resultV r .nil)
  | .abandonRequest i => .choice (str "abandonRequest") (.int i)
  | .extendedReq n v => .choice (str "extendedReq") (.seq (.cons (.octets n) (opt (v.map oct) .nil)))
  | .extendedResp r n v => .choice (str "extendedResp") (resultV r (opt (n.map oct) (opt (v.map oct) .nil)))
  | .intermediateResponse n v => .choice (str "intermediateResponse") (.seq (opt (n.map oct) (opt (v.map oct) .nil)))

def controlV (c : S.Control) : Val := .seq (.cons (.octets c.oid) (.cons (.bool c.critical) (opt (c.value.map oct) .nil)))

def controlsV (l : List S.Control) : Val := listV (l.map controlV)

def messageV (m : S.Message) : Val := .seq (.cons (.int m.id) (.cons (opV m.op) (opt (m.controls.map controlsV) .nil)))

/-! ## Encodings agree -/

open Spec.Wire in
def cat (E F : Enc) : Enc := fun c => ∃ a b, c = a ++ b ∧ E a ∧ F b

section
open Spec.Wire
variable (U : Rules) (R : Alts)

theorem all_nil : all [] = nothing := rfl
theorem all_cons (E : Enc) (Es : List Enc) : all (E :: Es) = cat E (all Es) := rfl
theorem cat_nothing (F : Enc) : cat nothing F = F := by
  funext c
  apply propext
  constructor
  · rintro ⟨a, b, rfl, rfl, h⟩; exact h
  · intro h; exact ⟨[], c, rfl, rfl, h⟩

theorem T_octets (g : UInt8) (b : Bytes) : EncT U R (.octets g) (.octets b) = tlv g (Spec.Wire.octets b) := by
  funext c; apply propext; simp [EncT]
theorem T_int (g : UInt8) (r) (z : Int) (h : inRange z r = true) : EncT U R (.int g r) (.int z) = tlv g (integer U z) := by
  funext c; apply propext
  constructor
  · rintro ⟨_, _, e, _, h⟩; cases e; exact h
  · intro h'; exact ⟨_, _, rfl, h, h'⟩
theorem T_bool (g : UInt8) (b : Bool) : EncT U R (.bool g) (.bool b) = tlv g (boolean U b) := by
  funext c; apply propext; simp [EncT]
theorem T_null (g : UInt8) : EncT U R (.null g) .null = tlv g nothing := by
  funext c; apply propext; simp [EncT]
theorem T_seq (g : UInt8) (cs : Comps) (fs : Items) : EncT U R (.seq g cs) (.seq fs) = tlv g (EncC U R cs fs) := by
  funext c; apply propext
  constructor
  · rintro ⟨_, _, e, h⟩; cases e; exact h
  · intro h; exact ⟨_, _, rfl, h⟩
theorem T_list (g : UInt8) (e : Ty) (vs : Items) : EncT U R (.list g e) (.list vs) = tlv g (EncL U R e vs) := by
  funext c; apply propext
  constructor
  · rintro ⟨_, _, e, h⟩; cases e; exact h
  · intro h; exact ⟨_, _, rfl, h⟩
theorem T_wrapped (g : UInt8) (n : Str) (i : Ty) (v : Val) : EncT U R (.wrapped g n i) (.choice n v) = tlv g (EncT U R i v) := by
  funext c; apply propext
  constructor
  · rintro (⟨_, _, e, h⟩ | ⟨_, _, e, _⟩)
    · cases e; exact h
    · cases e
  · intro h; exact Or.inl ⟨_, _, rfl, h⟩
theorem T_choice (alts : Alts) (n : Str) (v : Val) (t : Ty) (h : alts.byName n = some t) : EncT U R (.choice alts) (.choice n v) = EncT U R t v := by
  funext c; apply propext
  constructor
  · rintro (⟨_, _, e, _⟩ | ⟨a, t', e, h1, h2⟩)
    · cases e
    · cases e; rw [h] at h1; cases h1; exact h2
  · intro h'; exact Or.inr ⟨_, _, rfl, h, h'⟩
theorem T_self (n : Str) (v : Val) (t : Ty) (h : R.byName n = some t) : EncT U R .self (.choice n v) = EncT U R t v := by
  funext c; apply propext
  constructor
  · rintro (⟨_, _, e, _⟩ | ⟨a, t', e, h1, h2⟩)
    · cases e
    · cases e; rw [h] at h1; cases h1; exact h2
  · intro h'; exact Or.inr ⟨_, _, rfl, h, h'⟩
theorem C_nil : EncC U R .nil .nil = nothing := by simp only [EncC]
theorem C_req (n : Str) (t : Ty) (cs : Comps) (v : Val) (r : Items) : EncC U R (.cons n .required t cs) (.cons v r) = cat (EncT U R t v) (EncC U R cs r) := by
  funext c; apply propext; simp [EncC, cat]
theorem C_opt (n : Str) (t : Ty) (cs : Comps) (o : Option Val) (r : Items) :
    EncC U R (.cons n .optional t cs) (opt o r) = cat (Spec.Wire.opt (EncT U R t) o) (EncC U R cs r) := by
  cases o with
  | none => rw [Spec.Wire.opt, cat_nothing]; funext c; apply propext; simp [EncC, opt]
  | some v => funext c; apply propext; simp [EncC, opt, cat, Spec.Wire.opt]
theorem C_flag (n : Str) (g : UInt8) (cs : Comps) (b : Bool) (r : Items) :
    EncC U R (.cons n .defaultFalse (.bool g) cs) (.cons (.bool b) r) = cat (flag U g b) (EncC U R cs r) := by
  funext c; apply propext
  constructor
  · rintro ⟨x, y, e, h, h'⟩
    refine ⟨x, y, e, ?_, h'⟩
    rcases h with ⟨_, hb, rfl⟩ | ⟨h, h2⟩
    · exact Or.inl ⟨by cases hb; rfl, rfl⟩
    · rw [T_bool] at h2
      refine Or.inr ⟨?_, h2⟩
      cases b
      · exact Or.inr (h rfl rfl)
      · exact Or.inl rfl
  · rintro ⟨x, y, e, h, h'⟩
    refine ⟨x, y, e, ?_, h'⟩
    rcases h with ⟨rfl, rfl⟩ | ⟨h, h2⟩
    · exact Or.inl ⟨rfl, rfl, rfl⟩
    · refine Or.inr ⟨fun _ hb => ?_, by rw [T_bool]; exact h2⟩
      cases hb
      rcases h with h | h
      · cases h
      · exact h
theorem L_map {A : Type} (t : Ty) (f : A → Val) (E : A → Enc) (l : List A) (h : ∀ a ∈ l, EncT U R t (f a) = E a) :
    EncL U R t (Items.ofList (l.map f)) = all (l.map E) := by
  induction l with
  | nil => simp [Items.ofList, EncL, all_nil]
  | cons a l ih =>
    rw [List.map_cons, List.map_cons, all_cons, ← ih (fun a h' => h a (List.mem_cons_of_mem _ h')), ← h a (List.mem_cons_self ..)]
    funext c
    simp [Items.ofList, EncL, cat]
theorem opt_map {A : Type} (t : Ty) (f : A → Val) (E : A → Enc) (o : Option A) (h : ∀ a, EncT U R t (f a) = E a) :
    Spec.Wire.opt (EncT U R t) (o.map f) = Spec.Wire.opt E o := by
  cases o with
  | none => rfl
  | some a => exact h a

theorem T_octs (g : UInt8) (l : List Bytes) : EncT U R (.list g string) (octs l) = tlv g (all (l.map str4)) := by
  rw [octs, listV, T_list, L_map U R string oct str4 l (fun a _ => T_octets U R _ a)]

theorem sub_enc (s : S.Sub) : EncT U R substring (subV s) = s.enc := by
  cases s <;> rw [substring, subV, T_choice U R _ _ _ _ rfl, T_octets] <;> rfl

theorem ava_enc (g : UInt8) (a v : Bytes) : EncT U R (.seq g avaComps) (avaV a v) = tlv g (ava a v) := by
  rw [avaV, avaComps, T_seq, C_req, C_req, C_nil, T_octets, T_octets]; rfl

mutual
theorem filter_enc : ∀ f : S.Filter, EncT U filterAlts .self (filterV f) = f.enc U
  | .and l => by rw [filterV, T_self _ _ _ _ _ rfl, T_list, filters_enc l, Filter.enc]
  | .or l => by rw [filterV, T_self _ _ _ _ _ rfl, T_list, filters_enc l, Filter.enc]
  | .not f => by rw [filterV, T_self _ _ _ _ _ rfl, T_wrapped, filter_enc f, Filter.enc]
  | .equalityMatch a v => by rw [filterV, T_self _ _ _ _ _ rfl, ava_enc, Filter.enc]
  | .greaterOrEqual a v => by rw [filterV, T_self _ _ _ _ _ rfl, ava_enc, Filter.enc]
  | .lessOrEqual a v => by rw [filterV, T_self _ _ _ _ _ rfl, ava_enc, Filter.enc]
  | .approxMatch a v => by rw [filterV, T_self _ _ _ _ _ rfl, ava_enc, Filter.enc]
  | .present a => by rw [filterV, T_self _ _ _ _ _ rfl, T_octets, Filter.enc]
  | .substrings a l => by
    rw [filterV, T_self _ _ _ _ _ rfl, T_seq, C_req, C_req, C_nil, T_octets, listV, T_list, L_map U _ _ subV Sub.enc l (fun s _ => sub_enc U _ s), Filter.enc]; rfl
  | .extensibleMatch rule attr v dn => by
    rw [filterV, T_self _ _ _ _ _ rfl, T_seq, C_opt, C_opt, C_req, C_flag, C_nil, T_octets, opt_map U _ _ oct (fun b => tlv 0x81 (Spec.Wire.octets b)) _ (fun a => T_octets U _ _ a),
      opt_map U _ _ oct (fun b => tlv 0x82 (Spec.Wire.octets b)) _ (fun a => T_octets U _ _ a), Filter.enc]; rfl
theorem filters_enc : ∀ l : List S.Filter, EncL U filterAlts .self (filtersV l) = filters U l
  | [] => by rw [filtersV, filters]; simp only [EncL]
  | f :: l => by
    rw [filtersV, filters, ← filter_enc f, ← filters_enc l]
    funext c
    simp only [EncL]
end

theorem auth_enc (a : S.Auth) : EncT U R authentication (authV a) = a.enc := by
  cases a with
  | simple p => rw [authentication, authV, T_choice U R _ _ _ _ rfl, T_octets]; rfl
  | sasl m c =>
    rw [authentication, authV, T_choice U R _ _ _ _ rfl, T_seq, C_req, C_opt, C_nil, T_octets, opt_map U _ _ oct str4 _ (fun a => T_octets U _ _ a)]; rfl

theorem attr_enc (a : S.Attr) : EncT U R attribute_ (attrV a) = a.enc := by
  rw [attribute_, attrV, T_seq, C_req, C_req, C_nil, T_octets, listV, vals, T_list, L_map U _ _ oct str4 _ (fun s _ => T_octets U _ _ s)]; rfl

theorem result_enc (g : UInt8) (r : S.Result) (more : Comps) (rest : Items) (Es : List Enc) (h : EncC U R more rest = all Es) :
    EncT U R (.seq g (resultComps more)) (resultV r rest) = tlv g (all (r.parts U ++ Es)) := by
  rw [resultV, T_seq, C_req, C_req, C_req, C_opt, h, T_octets, T_octets, T_int _ _ _ _ _ rfl, opt_map U _ _ octs (fun l => tlv 0xA3 (all (l.map str4))) _ (fun l => T_octs U _ _ l)]
  rfl

theorem change_enc (p : Int × S.Attr) : EncT U R (.seq 0x30 changeComps) (changeV p) = tlv 0x30 (all [enum U p.1, p.2.enc]) := by
  rw [changeV, T_seq, C_req, C_req, C_nil, attr_enc, T_int _ _ _ _ _ rfl]; rfl

theorem control_enc (c : S.Control) : EncT U R (.seq 0x30 controlComps) (controlV c) = c.enc U := by
  rw [controlV, T_seq, C_req, C_flag, C_opt, C_nil, T_octets, opt_map U _ _ oct str4 _ (fun a => T_octets U _ _ a)]; rfl

theorem inRange_iff (z lo hi : Int) : inRange z (some (lo, hi)) = true ↔ lo ≤ z ∧ z ≤ hi := by simp [inRange]

theorem op_enc (o : S.Op) (h : o.Valid) : EncT U filterAlts (.choice protocolOps) (opV o) = o.enc U := by
  cases o with
  | bindRequest v n a =>
    rw [opV, T_choice _ _ _ _ _ _ rfl, T_seq, C_req, C_req, C_req, C_nil, T_int _ _ _ _ _ ((inRange_iff _ _ _).2 h), T_octets, auth_enc]; rfl
  | bindResponse r c =>
    rw [opV, T_choice _ _ _ _ _ _ rfl, bindRespComps, result_enc U _ _ r _ _ [Spec.Wire.opt (fun b => tlv 0x87 (Spec.Wire.octets b)) c]]
    · rfl
    · rw [C_opt, C_nil, opt_map U _ _ oct (fun b => tlv 0x87 (Spec.Wire.octets b)) _ (fun a => T_octets U _ _ a)]; rfl
  | unbindRequest => rw [opV, T_choice _ _ _ _ _ _ rfl, T_null]; rfl
  | searchRequest b s d l t y f a =>
    rw [opV, T_choice _ _ _ _ _ _ rfl, T_seq]
    simp only [C_req, C_nil, T_octets, T_bool, filter_enc, T_octs]
    rw [T_int _ _ _ _ _ ((inRange_iff l _ _).2 h.1), T_int _ _ _ _ _ ((inRange_iff t _ _).2 h.2), T_int _ _ _ _ s rfl, T_int _ _ _ _ d rfl]; rfl
  | searchResEntry n a => rw [opV, T_choice _ _ _ _ _ _ rfl, T_seq, C_req, C_req, C_nil, T_octets, listV, T_list, L_map U _ _ attrV Attr.enc _ (fun s _ => attr_enc U _ s)]; rfl
  | searchResRef l => rw [opV, T_choice _ _ _ _ _ _ rfl, T_octs]; rfl
  | modifyRequest o l =>
    rw [opV, T_choice _ _ _ _ _ _ rfl, T_seq, C_req, C_req, C_nil, T_octets, listV, T_list, L_map U _ _ changeV (fun p => tlv 0x30 (all [enum U p.1, p.2.enc])) _ (fun s _ => change_enc U _ s)]; rfl
  | addRequest n a => rw [opV, T_choice _ _ _ _ _ _ rfl, T_seq, C_req, C_req, C_nil, T_octets, listV, T_list, L_map U _ _ attrV Attr.enc _ (fun s _ => attr_enc U _ s)]; rfl
  | delRequest e => rw [opV, T_choice _ _ _ _ _ _ rfl, T_octets]; rfl
  | modDNRequest e n d s =>
    rw [opV, T_choice _ _ _ _ _ _ rfl, T_seq]
    simp only [C_req, C_nil, C_opt, T_octets, T_bool]
    rw [opt_map U _ _ oct (fun b => tlv 0x80 (Spec.Wire.octets b)) _ (fun a => T_octets U _ _ a)]; rfl
  | compareRequest e a v => rw [opV, T_choice _ _ _ _ _ _ rfl, T_seq, C_req, C_req, C_nil, T_octets, ava_enc]; rfl
  | abandonRequest i => rw [opV, T_choice _ _ _ _ _ _ rfl, T_int _ _ _ _ _ ((inRange_iff _ _ _).2 h)]; rfl
  | extendedReq n v => rw [opV, T_choice _ _ _ _ _ _ rfl, T_seq, C_req, C_opt, C_nil, T_octets, opt_map U _ _ oct (fun b => tlv 0x81 (Spec.Wire.octets b)) _ (fun a => T_octets U _ _ a)]; rfl
  | extendedResp r n v =>
    rw [opV, T_choice _ _ _ _ _ _ rfl, extendedRespComps, result_enc U _ _ r _ _ [Spec.Wire.opt (fun b => tlv 0x8A (Spec.Wire.octets b)) n, Spec.Wire.opt (fun b => tlv 0x8B (Spec.Wire.octets b)) v]]
    · rfl
    · rw [C_opt, C_opt, C_nil, opt_map U _ _ oct (fun b => tlv 0x8A (Spec.Wire.octets b)) _ (fun a => T_octets U _ _ a),
        opt_map U _ _ oct (fun b => tlv 0x8B (Spec.Wire.octets b)) _ (fun a => T_octets U _ _ a)]; rfl
  | intermediateResponse n v =>
    rw [opV, T_choice _ _ _ _ _ _ rfl, T_seq, C_opt, C_opt, C_nil, opt_map U _ _ oct (fun b => tlv 0x80 (Spec.Wire.octets b)) _ (fun a => T_octets U _ _ a),
        opt_map U _ _ oct (fun b => tlv 0x81 (Spec.Wire.octets b)) _ (fun a => T_octets U _ _ a)]; rfl
  | searchResDone r => rw [opV, T_choice _ _ _ _ _ _ rfl, result_enc U _ _ r _ _ [] (C_nil U _), List.append_nil]; rfl
  | modifyResponse r => rw [opV, T_choice _ _ _ _ _ _ rfl, result_enc U _ _ r _ _ [] (C_nil U _), List.append_nil]; rfl
  | addResponse r => rw [opV, T_choice _ _ _ _ _ _ rfl, result_enc U _ _ r _ _ [] (C_nil U _), List.append_nil]; rfl
  | delResponse r => rw [opV, T_choice _ _ _ _ _ _ rfl, result_enc U _ _ r _ _ [] (C_nil U _), List.append_nil]; rfl
  | modDNResponse r => rw [opV, T_choice _ _ _ _ _ _ rfl, result_enc U _ _ r _ _ [] (C_nil U _), List.append_nil]; rfl
  | compareResponse r => rw [opV, T_choice _ _ _ _ _ _ rfl, result_enc U _ _ r _ _ [] (C_nil U _), List.append_nil]; rfl

theorem message_enc (m : S.Message) (h : m.Valid) : EncT U filterAlts ldapMessage (messageV m) = m.enc U := by
  rw [messageV, ldapMessage, messageComps, T_seq, C_req, C_req, C_opt, C_nil, T_int _ _ _ _ _ ((inRange_iff _ _ _).2 h.1), op_enc U m.op h.2,
    opt_map U _ _ controlsV (fun l => tlv 0xA0 (all (l.map (Control.enc U))))]
  · rfl
  · intro l
    rw [controlsV, listV, controls, T_list, L_map U _ _ controlV (Control.enc U) _ (fun c _ => control_enc U _ c)]
end

/-! ## Ranges -/

section
open Spec.Wire
variable (U : Rules)

theorem C_int_inv {R : Alts} {n : Str} {g : UInt8} {r} {cs : Comps} {z : Int} {fs : Items} {c : Bytes}
    (h : EncC U R (.cons n .required (.int g r) cs) (.cons (.int z) fs) c) : inRange z r = true ∧ ∃ b, EncC U R cs fs b := by
  rw [C_req] at h
  obtain ⟨a, b, _, ⟨_, _, e, h1, _⟩, h2⟩ := h
  cases e
  exact ⟨h1, b, h2⟩

theorem C_req_inv {R : Alts} {n : Str} {t : Ty} {cs : Comps} {v : Val} {fs : Items} {c : Bytes}
    (h : EncC U R (.cons n .required t cs) (.cons v fs) c) : (∃ a, EncT U R t v a) ∧ ∃ b, EncC U R cs fs b := by
  rw [C_req] at h
  obtain ⟨a, b, _, h1, h2⟩ := h
  exact ⟨⟨a, h1⟩, b, h2⟩

theorem op_valid (o : S.Op) (bs : Bytes) (h : EncT U filterAlts (.choice protocolOps) (opV o) bs) : o.Valid := by
  cases o <;> try exact trivial
  case bindRequest v n a =>
    rw [opV, T_choice _ _ _ _ _ _ rfl, T_seq] at h
    obtain ⟨c, h, _⟩ := h
    exact (inRange_iff _ _ _).1 (C_int_inv U h).1
  case searchRequest b s d l t y f a =>
    rw [opV, T_choice _ _ _ _ _ _ rfl, T_seq] at h
    obtain ⟨c, h, _⟩ := h
    obtain ⟨_, _, h⟩ := C_req_inv U h
    obtain ⟨_, _, h⟩ := C_req_inv U h
    obtain ⟨_, _, h⟩ := C_req_inv U h
    obtain ⟨h1, _, h⟩ := C_int_inv U h
    obtain ⟨h2, _, h⟩ := C_int_inv U h
    exact ⟨(inRange_iff _ _ _).1 h1, (inRange_iff _ _ _).1 h2⟩
  case abandonRequest i =>
    rw [opV, T_choice _ _ _ _ _ _ rfl] at h
    obtain ⟨_, _, e, h, _⟩ := h
    cases e
    exact (inRange_iff _ _ _).1 h

theorem message_valid (m : S.Message) (bs : Bytes) (h : EncT U filterAlts ldapMessage (messageV m) bs) : m.Valid := by
  rw [messageV, ldapMessage, T_seq] at h
  obtain ⟨c, h, _⟩ := h
  obtain ⟨h1, _, h⟩ := C_int_inv U h
  obtain ⟨⟨_, h2⟩, _⟩ := C_req_inv U h
  exact ⟨(inRange_iff _ _ _).1 h1, op_valid U _ _ h2⟩
end

/-! ## TRUE -/

theorem ofList_noTrue {A : Type} (f : A → Val) (p : A → Bool) (l : List A) (h : ∀ a, Val.noTrue (f a) = p a) : Items.noTrue (Items.ofList (l.map f)) = l.all p := by
  induction l with
  | nil => rfl
  | cons a l ih => simp [Items.ofList, Items.noTrue, h, ih]

theorem opt_noTrue {A : Type} (f : A → Val) (o : Option A) (r : Items) (h : ∀ a, Val.noTrue (f a) = true) : Items.noTrue (opt (o.map f) r) = Items.noTrue r := by
  cases o with
  | none => rfl
  | some a => simp [opt, Items.noTrue, h]

theorem oct_noTrue (b : Bytes) : Val.noTrue (oct b) = true := rfl
theorem octs_noTrue (l : List Bytes) : Val.noTrue (octs l) = true := by
  have := ofList_noTrue oct (fun _ => true) l (fun _ => rfl)
  simp [octs, listV, Val.noTrue, this]

theorem attr_noTrue (a : S.Attr) : Val.noTrue (attrV a) = true := by
  have := octs_noTrue a.vals
  simp only [octs, listV] at this
  simp [attrV, Val.noTrue, Items.noTrue, listV] at *
  exact this

theorem result_noTrue (r : S.Result) (m : Items) : Val.noTrue (resultV r m) = Items.noTrue m := by
  simp [resultV, Val.noTrue, Items.noTrue, opt_noTrue octs _ _ octs_noTrue]

theorem ava_noTrue (a v : Bytes) : Val.noTrue (avaV a v) = true := rfl

mutual
theorem filter_noTrue : ∀ f : S.Filter, Val.noTrue (filterV f) = f.noTrue
  | .and l => by simp [filterV, Val.noTrue, Spec.Wire.Filter.noTrue, filters_noTrue l]
  | .or l => by simp [filterV, Val.noTrue, Spec.Wire.Filter.noTrue, filters_noTrue l]
  | .not f => by simp [filterV, Val.noTrue, Spec.Wire.Filter.noTrue, filter_noTrue f]
  | .equalityMatch a v => rfl
  | .greaterOrEqual a v => rfl
  | .lessOrEqual a v => rfl
  | .approxMatch a v => rfl
  | .present a => rfl
  | .substrings a l => by
    have : ∀ a, Val.noTrue (subV a) = (fun _ => true) a := by intro a; cases a <;> rfl
    have := ofList_noTrue subV (fun _ => true) l this
    simp [filterV, Val.noTrue, Items.noTrue, listV, this, Spec.Wire.Filter.noTrue]
  | .extensibleMatch rule attr v dn => by
    simp [filterV, Val.noTrue, Items.noTrue, opt_noTrue oct _ _ oct_noTrue, Spec.Wire.Filter.noTrue]
theorem filters_noTrue : ∀ l : List S.Filter, Items.noTrue (filtersV l) = Spec.Wire.noTrues l
  | [] => rfl
  | f :: l => by simp [filtersV, Items.noTrue, Spec.Wire.noTrues, filter_noTrue f, filters_noTrue l]
end

theorem list_attrs (l : List S.Attr) : Items.noTrue (Items.ofList (l.map attrV)) = true := by
  simp [ofList_noTrue attrV (fun _ => true) l attr_noTrue]

theorem op_noTrue (o : S.Op) : Val.noTrue (opV o) = o.noTrue := by
  cases o <;> try simp [opV, Val.noTrue, Items.noTrue, Spec.Wire.Op.noTrue, result_noTrue, opt_noTrue oct _ _ oct_noTrue, filter_noTrue, octs_noTrue, ava_noTrue, listV, list_attrs]
  case bindRequest v n a =>
    cases a with
    | simple p => rfl
    | sasl m c => simp [authV, Val.noTrue, Items.noTrue, opt_noTrue oct _ _ oct_noTrue]
  case modifyRequest o l =>
    have := ofList_noTrue changeV (fun _ => true) l (by intro a; simp [changeV, Val.noTrue, Items.noTrue, attr_noTrue])
    simp [this]

theorem message_noTrue (m : S.Message) : Val.noTrue (messageV m) = m.noTrue := by
  have hc : ∀ l : List S.Control, Val.noTrue (controlsV l) = l.all (fun c => !c.critical) := by
    intro l
    simp only [controlsV, listV, Val.noTrue]
    exact ofList_noTrue controlV _ l (fun c => by simp [controlV, Val.noTrue, Items.noTrue, opt_noTrue oct _ _ oct_noTrue])
  simp only [messageV, Val.noTrue, Items.noTrue, op_noTrue, Spec.Wire.Message.noTrue]
  cases m.controls with
  | none => simp [opt, Items.noTrue]
  | some l => simp [opt, Items.noTrue, hc]

/-! ## Different messages are different values -/

theorem ofList_inj {A : Type} {f : A → Val} (hf : ∀ a b, f a = f b → a = b) : ∀ (l l' : List A), Items.ofList (l.map f) = Items.ofList (l'.map f) → l = l'
  | [], [], _ => rfl
  | [], _ :: _, h => by simp [Items.ofList] at h
  | _ :: _, [], h => by simp [Items.ofList] at h
  | a :: l, b :: l', h => by
    simp only [List.map_cons, Items.ofList, Items.cons.injEq] at h
    rw [hf a b h.1, ofList_inj hf l l' h.2]

theorem opt_inj {A : Type} {f : A → Val} (hf : ∀ a b, f a = f b → a = b) (o o' : Option A) (r r' : Items) (h : opt (o.map f) r = opt (o'.map f) r') : o = o' ∧ r = r' := by
  cases o <;> cases o' <;> simp only [opt, Option.map_none, Option.map_some, Items.absent.injEq, Items.cons.injEq, reduceCtorEq] at h
  · exact ⟨rfl, h⟩
  · exact ⟨by rw [hf _ _ h.1], h.2⟩

theorem oct_inj : ∀ a b, oct a = oct b → a = b := by intro a b h; cases h; rfl
theorem octs_inj : ∀ a b, octs a = octs b → a = b := by
  intro a b h
  simp only [octs, listV, Val.list.injEq] at h
  exact ofList_inj oct_inj a b h

theorem sub_inj : ∀ a b, subV a = subV b → a = b := by
  intro a b h
  cases a <;> cases b <;> simp only [subV, Val.choice.injEq, Val.octets.injEq] at h <;> first | (exact absurd h.1 (by decide)) | (rw [h.2])

theorem attr_inj : ∀ a b, attrV a = attrV b → a = b := by
  intro a b h
  cases a; cases b
  simp only [attrV, listV, Val.seq.injEq, Items.cons.injEq, Val.octets.injEq, Val.list.injEq, and_true] at h
  rw [h.1, ofList_inj oct_inj _ _ h.2]

theorem change_inj : ∀ a b, changeV a = changeV b → a = b := by
  intro a b h
  cases a; cases b
  simp only [changeV, Val.seq.injEq, Items.cons.injEq, Val.int.injEq, and_true] at h
  rw [h.1, attr_inj _ _ h.2]

theorem control_inj : ∀ a b, controlV a = controlV b → a = b := by
  intro a b h
  cases a; cases b
  simp only [controlV, Val.seq.injEq, Items.cons.injEq, Val.octets.injEq, Val.bool.injEq] at h
  rw [h.1, h.2.1, (opt_inj oct_inj _ _ _ _ h.2.2).1]

theorem controls_inj : ∀ a b, controlsV a = controlsV b → a = b := by
  intro a b h
  simp only [controlsV, listV, Val.list.injEq] at h
  exact ofList_inj control_inj a b h

theorem auth_inj : ∀ a b, authV a = authV b → a = b := by
  intro a b h
  cases a <;> cases b <;> simp only [authV, Val.choice.injEq, Val.octets.injEq, Val.seq.injEq, Items.cons.injEq] at h <;> first | (exact absurd h.1 (by decide)) | skip
  · rw [h.2]
  · rw [h.2.1, (opt_inj oct_inj _ _ _ _ h.2.2).1]

mutual
theorem filter_inj : ∀ (f g : S.Filter), filterV f = filterV g → f = g
  | .and l, g, h => by
    cases g <;> simp only [filterV, Val.choice.injEq] at h <;> first | (exact absurd h.1 (by decide)) | skip
    simp only [Val.list.injEq] at h
    rw [filters_inj _ _ h.2]
  | .or l, g, h => by
    cases g <;> simp only [filterV, Val.choice.injEq] at h <;> first | (exact absurd h.1 (by decide)) | skip
    simp only [Val.list.injEq] at h
    rw [filters_inj _ _ h.2]
  | .not f, g, h => by
    cases g <;> simp only [filterV, Val.choice.injEq] at h <;> first | (exact absurd h.1 (by decide)) | skip
    rw [filter_inj _ _ h.2.2]
  | .equalityMatch a v, g, h => by
    cases g <;> simp only [filterV, Val.choice.injEq] at h <;> first | (exact absurd h.1 (by decide)) | skip
    have := h.2
    simp only [avaV, Val.seq.injEq, Items.cons.injEq, Val.octets.injEq, and_true] at this
    rw [this.1, this.2]
  | .greaterOrEqual a v, g, h => by
    cases g <;> simp only [filterV, Val.choice.injEq] at h <;> first | (exact absurd h.1 (by decide)) | skip
    have := h.2
    simp only [avaV, Val.seq.injEq, Items.cons.injEq, Val.octets.injEq, and_true] at this
    rw [this.1, this.2]
  | .lessOrEqual a v, g, h => by
    cases g <;> simp only [filterV, Val.choice.injEq] at h <;> first | (exact absurd h.1 (by decide)) | skip
    have := h.2
    simp only [avaV, Val.seq.injEq, Items.cons.injEq, Val.octets.injEq, and_true] at this
    rw [this.1, this.2]
  | .approxMatch a v, g, h => by
    cases g <;> simp only [filterV, Val.choice.injEq] at h <;> first | (exact absurd h.1 (by decide)) | skip
    have := h.2
    simp only [avaV, Val.seq.injEq, Items.cons.injEq, Val.octets.injEq, and_true] at this
    rw [this.1, this.2]
  | .present a, g, h => by
    cases g <;> simp only [filterV, Val.choice.injEq] at h <;> first | (exact absurd h.1 (by decide)) | skip
    have := h.2
    simp only [Val.octets.injEq] at this
    rw [this]
  | .substrings a l, g, h => by
    cases g <;> simp only [filterV, Val.choice.injEq] at h <;> first | (exact absurd h.1 (by decide)) | skip
    have := h.2
    simp only [listV, Val.seq.injEq, Items.cons.injEq, Val.octets.injEq, Val.list.injEq, and_true] at this
    rw [this.1, ofList_inj sub_inj _ _ this.2]
  | .extensibleMatch r a v d, g, h => by
    cases g <;> simp only [filterV, Val.choice.injEq] at h <;> first | (exact absurd h.1 (by decide)) | skip
    have := h.2
    simp only [Val.seq.injEq] at this
    obtain ⟨e1, this⟩ := opt_inj oct_inj _ _ _ _ this
    obtain ⟨e2, this⟩ := opt_inj oct_inj _ _ _ _ this
    simp only [Items.cons.injEq, Val.octets.injEq, Val.bool.injEq, and_true] at this
    rw [e1, e2, this.1, this.2]
theorem filters_inj : ∀ (l l' : List S.Filter), filtersV l = filtersV l' → l = l'
  | [], [], _ => rfl
  | [], _ :: _, h => by simp [filtersV] at h
  | _ :: _, [], h => by simp [filtersV] at h
  | f :: l, g :: l', h => by
    simp only [filtersV, Items.cons.injEq] at h
    rw [filter_inj f g h.1, filters_inj l l' h.2]
end

theorem result_inj {r r' : S.Result} {m m' : Items} (h : resultV r m = resultV r' m') : r = r' ∧ m = m' := by
  cases r; cases r'
  simp only [resultV, Val.seq.injEq, Items.cons.injEq, Val.int.injEq, Val.octets.injEq] at h
  obtain ⟨e1, e2, e3, h⟩ := h
  obtain ⟨e4, h⟩ := opt_inj octs_inj _ _ _ _ h
  exact ⟨by rw [e1, e2, e3, e4], h⟩

/-- the number of the alternative -/
def opIx : S.Op → Nat
  | .bindRequest .. => 0 | .bindResponse .. => 1 | .unbindRequest => 2 | .searchRequest .. => 3 | .searchResEntry .. => 4 | .searchResDone .. => 5 | .searchResRef .. => 6
  | .modifyRequest .. => 7 | .modifyResponse .. => 8 | .addRequest .. => 9 | .addResponse .. => 10 | .delRequest .. => 11 | .delResponse .. => 12 | .modDNRequest .. => 13
  | .modDNResponse .. => 14 | .compareRequest .. => 15 | .compareResponse .. => 16 | .abandonRequest .. => 17 | .extendedReq .. => 18 | .extendedResp .. => 19
  | .intermediateResponse .. => 20

def opNames : List Str := [str "bindRequest", str "bindResponse", str "unbindRequest", str "searchRequest", str "searchResEntry", str "searchResDone", str "searchResRef",
  str "modifyRequest", str "modifyResponse", str "addRequest", str "addResponse", str "delRequest", str "delResponse", str "modDNRequest", str "modDNResponse",
  str "compareRequest", str "compareResponse", str "abandonRequest", str "extendedReq", str "extendedResp", str "intermediateResponse"]

theorem opName_ix (o : S.Op) : opNames.idxOf o.name = opIx o := by cases o <;> simp only [Spec.Wire.Op.name, opIx] <;> decide +kernel

theorem op_inj (o o' : S.Op) (h : opV o = opV o') : o = o' := by
  have hn : ∀ x : S.Op, ∃ v, opV x = .choice x.name v := by intro x; cases x <;> exact ⟨_, rfl⟩
  have hix : opIx o = opIx o' := by
    obtain ⟨v, e⟩ := hn o
    obtain ⟨v', e'⟩ := hn o'
    rw [e, e', Val.choice.injEq] at h
    rw [← opName_ix, ← opName_ix, h.1]
  cases o <;> cases o' <;> first | (exact absurd hix (by simp only [opIx]; decide)) | skip
  all_goals simp only [opV, Val.choice.injEq, true_and] at h
  · simp only [Val.seq.injEq, Items.cons.injEq, Val.int.injEq, Val.octets.injEq, and_true] at h
    rw [h.1, h.2.1, auth_inj _ _ h.2.2]
  · obtain ⟨e1, e2⟩ := result_inj h
    rw [e1, (opt_inj oct_inj _ _ _ _ e2).1]
  · rfl
  · simp only [Val.seq.injEq, Items.cons.injEq, Val.int.injEq, Val.octets.injEq, Val.bool.injEq, and_true] at h
    obtain ⟨e1, e2, e3, e4, e5, e6, e7, e8⟩ := h
    rw [e1, e2, e3, e4, e5, e6, filter_inj _ _ e7, octs_inj _ _ e8]
  · simp only [listV, Val.seq.injEq, Items.cons.injEq, Val.octets.injEq, Val.list.injEq, and_true] at h
    rw [h.1, ofList_inj attr_inj _ _ h.2]
  · rw [(result_inj h).1]
  · rw [octs_inj _ _ h]
  · simp only [listV, Val.seq.injEq, Items.cons.injEq, Val.octets.injEq, Val.list.injEq, and_true] at h
    rw [h.1, ofList_inj change_inj _ _ h.2]
  · rw [(result_inj h).1]
  · simp only [listV, Val.seq.injEq, Items.cons.injEq, Val.octets.injEq, Val.list.injEq, and_true] at h
    rw [h.1, ofList_inj attr_inj _ _ h.2]
  · rw [(result_inj h).1]
  · simp only [Val.octets.injEq] at h; rw [h]
  · rw [(result_inj h).1]
  · simp only [Val.seq.injEq, Items.cons.injEq, Val.octets.injEq, Val.bool.injEq] at h
    rw [h.1, h.2.1, h.2.2.1, (opt_inj oct_inj _ _ _ _ h.2.2.2).1]
  · rw [(result_inj h).1]
  · simp only [avaV, Val.seq.injEq, Items.cons.injEq, Val.octets.injEq, and_true] at h
    rw [h.1, h.2.1, h.2.2]
  · rw [(result_inj h).1]
  · simp only [Val.int.injEq] at h; rw [h]
  · simp only [Val.seq.injEq, Items.cons.injEq, Val.octets.injEq] at h
    rw [h.1, (opt_inj oct_inj _ _ _ _ h.2).1]
  · obtain ⟨e1, e2⟩ := result_inj h
    obtain ⟨e2, e3⟩ := opt_inj oct_inj _ _ _ _ e2
    rw [e1, e2, (opt_inj oct_inj _ _ _ _ e3).1]
  · simp only [Val.seq.injEq] at h
    obtain ⟨e2, e3⟩ := opt_inj oct_inj _ _ _ _ h
    rw [e2, (opt_inj oct_inj _ _ _ _ e3).1]

theorem message_inj (m m' : S.Message) (h : messageV m = messageV m') : m = m' := by
  cases m; cases m'
  simp only [messageV, Val.seq.injEq, Items.cons.injEq, Val.int.injEq] at h
  rw [h.1, op_inj _ _ h.2.1, (opt_inj controls_inj _ _ _ _ h.2.2).1]

end Wire
end Laurelin
