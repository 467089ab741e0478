import Verif.Props.BaseObjects
import Verif.Props.BaseValues
import Verif.Props.Values
import Verif.Props.Config
import Verif.Props.Controls
import Verif.Props.Dn
import Verif.Props.Extensible
import Verif.Props.Filter
import Verif.Props.LdapUri
import Verif.Props.Ldif
import Verif.Props.LdifRead
import Verif.Props.Navigate
import Verif.Props.PagedResults
import Verif.Props.Prep
import Verif.Props.Refresh
import Verif.Props.Registry
import Verif.Props.Search
import Verif.Props.StartTls
import Verif.Props.Syntax
import Verif.Props.Syntaxes
import Verif.Props.Transaction
import Verif.Props.TransLdif
import Verif.Props.ConnUri
import Verif.Props.Conn
import Verif.Props.Wire
import Verif.Props.WireReads
/-!
Concrete cases that meet the hypotheses of theorems proved elsewhere (continued): each example applies the theorem named above it.
-/
namespace Laurelin.Props.Instances2

section wire
open Laurelin Codec Asn1 Rfc4511 Wire Received WireP WireR

theorem validA : (∀ p ∈ [(entryA, entryO), (foreignA, foreignO), (doneA, doneO)], p.1.Valid ∧ p.1.id ≠ 0 ∧ p.1.enc Spec.Wire.x690 p.2) := by
  intro p hp
  simp only [List.mem_cons, List.not_mem_nil, or_false] at hp
  rcases hp with rfl | rfl | rfl
  · have h := has_enc entryA entryO (by decide +kernel)
    exact ⟨h.1, by decide, h.2⟩
  · have h := has_enc foreignA foreignO (by decide +kernel)
    exact ⟨h.1, by decide, h.2⟩
  · have h := has_enc doneA doneO (by decide +kernel)
    exact ⟨h.1, by decide, h.2⟩

/-- `c80_entry`: an entry with an attribute of two values, one of them not text -/
example : ∃ v, recv (entryO ++ [0x30]) = .ok (v, [0x30]) ∧ messageId v = some 3 ∧ ∃ d, searchMsg v = some (.entry (str "cn=a", d) []) := by
  obtain ⟨v, h1, h2, d, h3, _⟩ := c80_entry 3 (by unfold Spec.Wire.Int0Max; omega) (str "cn=a") [(str "cn", [[0x61], [0xFF]])] none nofun entryO [0x30] (validA _ (List.mem_cons_self ..)).2.2
  exact ⟨v, h1, h2, d, h3⟩

/-- `c80_done` -/
example : ∃ v, recv (doneO ++ []) = .ok (v, []) ∧ messageId v = some 3 ∧ searchMsg v = some (.done 0 [] []) :=
  c80_done 3 (by unfold Spec.Wire.Int0Max; omega) 0 [] [] none none nofun doneO [] (validA (doneA, doneO) (by simp)).2.2

/-- `c80_reference` -/
example : ∃ v, recv ([0x30, 16, 2, 1, 3, 0x73, 11, 4, 9] ++ utf8Enc (str "ldap://b/") ++ []) = .ok (v, []) ∧ messageId v = some 3 ∧ searchMsg v = some (.ref [str "ldap://b/"] []) :=
  c80_reference 3 (by unfold Spec.Wire.Int0Max; omega) [str "ldap://b/"] none nofun _ [] (has_enc _ _ (by decide +kernel)).2

/-- `c80_foreign`, `c80_result`, `c80_unexpected`: the answer to a delete -/
example : (∃ v, recv (foreignO ++ [1]) = .ok (v, [1]) ∧ messageId v = some 4 ∧ searchMsg v = some .other) ∧
    (∃ v, recv (foreignO ++ [1]) = .ok (v, [1]) ∧ messageId v = some 4 ∧ readResult (str "delResponse") v = some (some (32, []))) ∧
    ∃ v, recv (foreignO ++ [1]) = .ok (v, [1]) ∧ messageId v = some 4 ∧ readResult (str "addResponse") v = some none := by
  have hv := validA (foreignA, foreignO) (by simp)
  exact ⟨c80_foreign foreignA hv.1 (by decide) (by decide) (by decide) foreignO [1] hv.2.2,
    c80_result foreignA hv.1 ⟨32, [], [], none⟩ rfl 32 rfl none rfl nofun foreignO [1] hv.2.2,
    c80_unexpected foreignA hv.1 (str "addResponse") (by decide) foreignO [1] hv.2.2⟩

/-- `c80_wait`: all but the last octet -/
example : recv (foreignO.take 13) = .underrun :=
  have hv := validA (foreignA, foreignO) (by simp)
  c80_wait foreignA hv.1 foreignO (foreignO.take 13) (foreignO.drop 13) hv.2.2 (by decide) (by decide)

/-- `c80_stream`: three messages in chunks that split the first and join the rest -/
example : ∃ outs : List Decoded, nexts codec 3 outs.length (.top []) (Net.World.init [entryO.take 5, entryO.drop 5 ++ foreignO ++ doneO]).sock = outs.map Net.Out.yields ∧
    outs.map (fun d => Res.ok (d.1.1, ([] : Bytes))) = [recv entryO, recv doneO] :=
  c80_stream [(entryA, entryO), (foreignA, foreignO), (doneA, doneO)] validA [entryO.take 5, entryO.drop 5 ++ foreignO ++ doneO] (by decide) 3

/-- `c79_strict_partial`, `c79_shortest`: a search and a rename -/
example : ∃ bs, send 7 (Call.search sampleSearch).op none = some bs ∧ ∃ o, Spec.Wire.asks (Call.search sampleSearch) = some o ∧
    (Spec.Wire.message 7 o none).enc Spec.Wire.strict bs ∧ ∀ b', (Spec.Wire.message 7 o none).enc Spec.Wire.x690 b' → bs.length ≤ b'.length := by
  have hs : ∃ bs, send 7 (Call.search sampleSearch).op none = some bs := ⟨_, by rfl⟩
  obtain ⟨bs, hb⟩ := hs
  have ho : ∃ o, Spec.Wire.asks (Call.search sampleSearch) = some o ∧ (Spec.Wire.message 7 o none).noTrue = true := ⟨_, by rfl, by decide⟩
  obtain ⟨o, ho, hn⟩ := ho
  have henc := (c79_strict_partial 7 _ none bs hb o ho).2 hn
  refine ⟨bs, hb, o, ho, henc, ?_⟩
  obtain ⟨o', ho', hv', _, he'⟩ := c79_sent 7 _ none bs hb
  cases ho.symm.trans ho'
  obtain ⟨bs', h1, h2⟩ := c79_shortest 7 _ none o ho trivial nofun hv' bs he'
  cases hb.symm.trans h1
  exact h2

/-- `c81_search_injective`, `c81_controls_injective` -/
example (mid : Int) (q : SearchReq) (c : Option (List Controls.Wire)) (bs : Bytes) (h : send 7 (Call.search sampleSearch).op none = some bs)
    (h' : send mid (Call.search q).op c = some bs) : 7 = mid ∧ sampleSearch = q := c81_search_injective 7 mid sampleSearch q none c bs h h'

end wire

section schema
open Laurelin Schema SchemaSpec Spec Spec.AttrSchema Spec.ObjectSchema Laurelin.AttrSchema Laurelin.ObjectSchema BaseRules

theorem alAscii : AsciiLower BaseP.al := fun _ _ => rfl

/-- `c76_classes`, `c76_permits`: `person` needs `sn`, `cn` and `objectClass`, and permits `telephoneNumber` -/
example : (∃ c ∈ BaseO.classes, c.names = [str "person"] ∧ Requires BaseP.al BaseP.types BaseO.classes c (str "sn")) ∧
    ∃ c ∈ BaseO.classes, c.names = [str "person"] ∧ Permits BaseP.al BaseP.types BaseO.classes c (str "telephoneNumber") := by
  have h1 : ∃ e ∈ BaseSchema.required, e.1 = str "person" ∧ str "sn" ∈ e.2 := by decide +kernel
  have h2 : ∃ e ∈ BaseSchema.permitted, e.1 = str "person" ∧ str "telephoneNumber" ∈ e.2 := by decide +kernel
  obtain ⟨e, he, hn, hm⟩ := h1
  obtain ⟨e', he', hn', hm'⟩ := h2
  obtain ⟨c, hc, hcn, h⟩ := (c76_classes BaseP.al alAscii).1 e he
  obtain ⟨c', hc', hcn', h'⟩ := (c76_permits BaseP.al alAscii).1 e' he'
  exact ⟨⟨c, hc, hn ▸ hcn, (h _).2 hm⟩, c', hc', hn' ▸ hcn', (h' _).2 hm'⟩

/-- `c76_misspelled`: a `domain` with its ISDN number -/
example (ok : Str → Str → Prop) (write : Bool) :
    ¬ Follows BaseP.al BaseP.types BaseO.classes ok (fun a k => a = k) [str "Domain"]
      [(str "objectClass", [str "Domain"]), (str "dc", [str "x"]), (str "internationalISDNNumber", [str "1"])] write :=
  (c76_misspelled BaseP.al alAscii (str "domain") (str "internationaliSDNNumber") (str "internationalISDNNumber") (by decide) ok [str "Domain"] _ write
    (by intro v hv; cases List.mem_singleton.1 hv; exact ⟨⟨'D', str "omain", rfl, by decide⟩, by decide⟩) (by decide)).1

/-- `c74_in` and `c76_rules`, `c77_guide_values_partial` need a loaded schema and an attribute found in it -/
example : ∃ r f, load BaseP.al Reg.empty (BaseSchema.attributeTypes ++ BaseSchema.netgroupTypes) = (r, .ok ()) ∧ r.find BaseP.al (str "TELEPHONENUMBER") = .ok (.elem f) ∧
    f.names = [str "telephoneNumber"] := by
  obtain ⟨r, hr, _⟩ := c76_load BaseP.al alAscii _ (List.Perm.refl _)
  have h1 : ∃ e ∈ BaseSchema.equality, str "telephoneNumber" ∈ e.2 := by decide +kernel
  obtain ⟨e, he, hm⟩ := h1
  obtain ⟨_, _, _, h⟩ := (c76_rules BaseP.al alAscii _ (List.Perm.refl _) r hr asciiUni 900 (by decide)).1 e he
  obtain ⟨f, h2, h3, _⟩ := h _ hm (str "TELEPHONENUMBER") ⟨⟨'T', str "ELEPHONENUMBER", rfl, by decide⟩, by decide⟩
  exact ⟨r, elemOf f, hr, h2, h3⟩

/-- `c77_unknown`: an OID that is not under the LDAP syntaxes -/
example : getSyntaxRule (baseSyntaxes ++ netgroupSyntaxes) (str "1.2.3") = .error .keyError :=
  c77_unknown (str "1.2.3") (by
    have : ∀ n ∈ (Syntaxes.languages (inClass pySpace)).map Prod.fst, str "1.2.3" ≠ str "1.3.6.1.4.1.1466.115.121.1." ++ n := by decide +kernel
    intro p hp
    exact this _ (List.mem_map.2 ⟨p, hp, rfl⟩)) (by decide) (by decide) (by decide)

/-- `c32_lookup`, `c32_half_registered`: the second name is taken, and the element is left behind under its OID -/
example : ((Reg.empty : Reg Nat).run BaseP.al [⟨str "2.5.4.3", [str "cn"], 1⟩]).1.find BaseP.al (str "CN") = .ok (.elem ⟨str "2.5.4.3", [str "cn"], 1⟩) ∧
    ((((Reg.empty : Reg Nat).run BaseP.al [⟨str "2.5.4.3", [str "cn"], 1⟩]).1.register BaseP.al ⟨str "1.2.3", [str "CN"], 2⟩).1.find BaseP.al (str "1.2.3")) = .ok (.elem ⟨str "1.2.3", [str "CN"], 2⟩) := by
  have h := (c32_lookup BaseP.al [⟨str "2.5.4.3", [str "cn"], 1⟩] 0 _ rfl (by decide)).2 (str "cn") (List.mem_singleton.2 rfl) (str "CN") (by decide) (by decide)
  exact ⟨h, (c32_half_registered BaseP.al [⟨str "2.5.4.3", [str "cn"], 1⟩] ⟨str "1.2.3", [str "CN"], 2⟩ ⟨str "2.5.4.3", [str "cn"], 1⟩ (str "CN") (List.mem_singleton.2 rfl) (by decide) h (by decide) (by decide)).2.1⟩

end schema

section text
open Laurelin Spec Spec.Abnf

/-- `c57_substring_partial`, `c57_oid_partial`, `c57_dn_shape` -/
example : Rfc4517.oid (str "cn") ∧ Accepts Syntax.ruleOID (str "cn") := by
  have h : Rfc4517.oid (str "cn") := .inl ⟨['c'], ['n'], rfl, ⟨'c', rfl, by decide⟩, [['n']], rfl, by intro x hx; cases List.mem_singleton.1 hx; exact ⟨'n', rfl, by decide⟩⟩
  exact ⟨h, c57_oid_partial _ h⟩

/-- `c36_numeric`, `c36_telephone`, `c36_symmetric`, `c36_reflexive`, `c36_transitive`, `c36_spaces_ignored` -/
example : ruleMatch asciiUni numericPrep (str "12 34") (str "1 234") = .ok true ∧ ruleMatch asciiUni telephonePrep (str "+1 555-Call") (str "+1555 CALL") = .ok true ∧
    ruleMatch asciiUni caseIgnorePrep (str "a  B") (str "A b") = .ok true ∧ ruleMatch asciiUni caseIgnorePrep (str "a") (str "b") = .ok false ∧
    ruleMatch asciiUni caseExactPrep (str "a  b") (str "a b") = .ok true := by decide +kernel
example (c : Str) (h : ruleMatch asciiUni caseIgnorePrep (str "A b") c = .ok true) : ruleMatch asciiUni caseIgnorePrep (str "a  B") c = .ok true :=
  c36_transitive asciiUni (str "caseIgnoreMatch", caseIgnorePrep) (by decide) (str "a  B") (str "A b") c (by decide +kernel) h

/-- `c22_exact` -/
example : ∃ f, parseStandard (str "(2.5.4.3=a)") = .ok f := ⟨_, by rfl⟩

/-- `c42_output` -/
example : Spec.Ldif.logical (Ldif.formatLdif (str "cn=a") [(str "cn", .text (str "a")), (str "jpegPhoto", .bin [0xFF, 0xD8])]) =
    Ldif.dnLine (str "cn=a") :: [Ldif.attrLine (str "cn") (.text (str "a")), Ldif.attrLine (str "jpegPhoto") (.bin [0xFF, 0xD8]), []] := by decide +kernel

/-- `c86_line_iff`, `c86_binary_never` -/
example : ':' ∉ str "jpegPhoto" ∧ ':' ∉ str "cn;lang-de" := by decide

/-- `c58_cookie_latin1`, `c58_leftover`: a paged-results value with a cookie of three octets -/
example (r : Bytes) (hr : r ≠ []) : ∃ v, Paged.prepare .latin1 (.pair 100 (.text (str "abc"))) = .ok v ∧ Paged.handle .latin1 (v ++ r) = .error .ldapError := by
  have h : ∃ v, Paged.prepare .latin1 (.pair 100 (.text (str "abc"))) = .ok v := ⟨_, by rfl⟩
  obtain ⟨v, h⟩ := h
  obtain ⟨c, _, h2, _⟩ := c58_sent .latin1 100 _ v h
  exact ⟨v, h, c58_leftover .latin1 100 c v r h2 hr⟩

/-- `c48_scope_words` -/
example : ∃ w, scopeText .one = .ok w ∧ scopeOfString w = .ok .one := ⟨_, rfl, c48_scope_words .one _ rfl⟩

end text

section connections
open Laurelin Spec Tls TlsP

/-- `c72_scheme`, `c72_no_scheme` -/
example : parseUri id (str "ldapi:///var/run/ldapi") = .ok (str "ldapi", str "/var/run/ldapi") ∧ parseUri id (str "db") = .ok (str "ldap", str "db") := by decide

/-- `c71_refused`: a second TLS, and a server that does not offer it -/
example (verify : Option Bool) (cas : Cas) (peer : Except Err Cert) (i1 i2 : List (List Msg)) :
    let st := ({} : Tls.St).run id allTrusted exNet [.connect (str "ldap://db") true true {} (.error .osError) [[⟨1, .entry ⟨[], []⟩⟩, ⟨1, .done true⟩]]]
    st.startTls allTrusted 0 verify cas peer i1 i2 = (.err .ldapSupport, st) := by
  intro st
  have h : ∃ c s, st.insts[0]? = some c ∧ st.socks[c.sock]? = some s ∧ s.startedTls = false ∧ oidStartTls ∉ c.dse.2.exts := ⟨_, _, by rfl, by rfl, by rfl, by decide⟩
  obtain ⟨c, s, h1, h2, h3, h4⟩ := h
  exact (c71_refused allTrusted st 0 verify cas peer i1 i2 c s h1 h2).2 h3 h4

/-- `c71_stays`, `c71_no_way_back`: after a connection has started TLS -/
example (es : List Tls.Ev) :
    let st := (({} : Tls.St).run id allTrusted exNet [openDb, .startTls 0 none {} (.ok certDb) [[⟨2, .ext true none⟩]] [[⟨3, .entry dseTls⟩, ⟨3, .done true⟩]]])
    ∃ s s' new, st.socks[0]? = some s ∧ s.startedTls = true ∧ (st.run id allTrusted exNet es).socks[0]? = some s' ∧ s'.chan = s.chan ∧ s'.sent = s.sent ++ new ∧ ∀ m ∈ new, m.chan = s.chan := by
  intro st
  have h : ∃ s, st.socks[0]? = some s ∧ s.startedTls = true := ⟨_, by rfl, by decide⟩
  obtain ⟨s, h1, h2⟩ := h
  obtain ⟨s', new, h3⟩ := c71_stays id allTrusted exNet st 0 s h1 h2 es
  exact ⟨s, s', new, h1, h2, h3⟩

/-- `c26_simple_bind`: a first and a second bind on an open connection -/
example : ∃ c s, (({} : Conn.St).run id List.head? [.connect (str "ldap://h") true true none Props.up]).2.insts[0]? = some c ∧
    (({} : Conn.St).run id List.head? [.connect (str "ldap://h") true true none Props.up]).2.socks[c.sock]? = some s ∧ s.unbound = false ∧ s.bound = false ∧ s.nextId ≤ Conn.maxInt :=
  ⟨_, _, by rfl, by rfl, by decide, by decide, by decide⟩

end connections

section objects
open Laurelin Spec

/-- `c87_aims`, `c87_unbound`, `c87_outcome`: a comparison, and the same on a closed connection -/
example : ∃ rq, Spec.Navigate.Aims (navEnv []).conn navBase (.compare (str "cn") (str "a")) rq ∧
    (Laurelin.Navigate.call (navEnv []) ⟨[], []⟩ navBase (.compare (str "cn") (str "a"))).1.sent = [rq] := by
  rcases c87_aims (navEnv []) ⟨[], []⟩ navBase (str "o=x") rfl (.compare (str "cn") (str "a")) with h | h
  · exact absurd (congrArg List.length h) (by decide +kernel)
  · exact h
example : ∃ e, Laurelin.Navigate.call { navEnv [] with conn := { (navEnv []).conn with unbound := true } } ⟨[], []⟩ navBase (.deleteChild (str "a") []) = (⟨[], []⟩, .error e) :=
  c87_unbound _ ⟨[], []⟩ navBase rfl _ nofun

/-- `c85_refresh_all`, `c85_missing`: an object that has a stale `cn` and no `sn` -/
example : CIDict.Inv lc RefreshP.obj0 → ∀ a, RefreshP.entryOf RefreshP.shown (lc a) ≠ [] →
    AttrsDict.getAttr lc (Refresh.refreshAll lc (some (RefreshP.server RefreshP.shown)) RefreshP.obj0).obj a = RefreshP.entryOf RefreshP.shown (lc a) := fun hi =>
  c85_refresh_all lc RefreshP.naming _ _ (RefreshP.server_serves RefreshP.shown (by decide) (by decide)) _ hi (by decide +kernel)

/-- `c29_reference_counts` -/
example : Laurelin.Search.getObj (exEnv false false) false none ⟨[], []⟩ [.ref [str "ldap://b/"] [], .done 0 [] []] = some (.ok (.ref [str "ldap://b/"] [])) :=
  (c29_reference_counts (exEnv false false) ⟨[], []⟩ [str "ldap://b/"] rfl).1

/-- `c49_extensions` -/
example : (Config.load exUp (fun _ => .ok 1) (fun _ => .ok ()) Config.shipped { extensions := some [str "laurelin.extensions.descattrs"] }).result = .error .attributeError :=
  (c49_extensions exUp (fun _ => .ok 1) (fun _ => .ok ()) Config.shipped { extensions := some [str "laurelin.extensions.descattrs"] } _ _ rfl rfl).1

/-- `c48_search` -/
example (u : LdapUri) (h : u.starttls = some false) : ∃ a, (uriSearch u (.ok ()) (.error .ldapError) (fun _ => .ok ()) (.ok ())).2 = .ok a ∧ a.base = u.dn := by
  have h1 : ∃ a, (uriSearch u (.ok ()) (.error .ldapError) (fun _ => .ok ()) (.ok ())).2 = .ok a := by simp [uriSearch, h]
  obtain ⟨a, ha⟩ := h1
  exact ⟨a, ha, (c48_search u _ _ _ _ a ha).1⟩

/-- `c45_delete` -/
example : (((⟨some (str "cn=a,dc=x"), true, CIDict.empty, .sub, none⟩ : LObj).delete false (.ok ()) (fun _ => .ok ())).1.delete false (.ok ()) (fun _ => .ok ())).2 =
    ([], .error .runtimeError) :=
  ((c45_delete id (fun _ => .ok .default) ⟨some (str "cn=a,dc=x"), true, CIDict.empty, .sub, none⟩ (str "cn=a,dc=x") rfl rfl false (.ok ()) (fun _ => .ok ())).2.2.2 (by decide)).2.2.2
    false (.ok ()) (fun _ => .ok ()) (fun _ => .ok ()) (str "cn=b") true none |>.2.2.1

/-- `c13_rejected_not_staged`: three changes at once, which the validator refuses -/
example : ((((TState.init tdict).step (List.map Char.toLower) (fun _ => .ok .default) (.begin none)).1.step (List.map Char.toLower) (fun _ => .ok .default)
    (.modify 0 tenv [⟨.add, str "cn", .list [3]⟩, ⟨.add, str "cn", .list [4]⟩, ⟨.add, str "cn", .list [5]⟩])).2) = .error .ldapValidation := by
  have h : ∃ tr, ((TState.init tdict).step (List.map Char.toLower) (fun _ => .ok .default) (.begin none)).1.trans[0]? = some tr := ⟨_, by rfl⟩
  obtain ⟨tr, h⟩ := h
  exact (c13_rejected_not_staged (List.map Char.toLower) (fun _ => .ok .default) _ 0 tr h tenv _ .ldapValidation (by rfl)).1

end objects

end Laurelin.Props.Instances2
