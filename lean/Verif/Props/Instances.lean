import Verif.Props.BaseObjects
import Verif.Props.BaseValues
import Verif.Props.Config
import Verif.Props.Controls
import Verif.Props.Dn
import Verif.Props.Extensible
import Verif.Props.Filter
import Verif.Props.LdapUri
import Verif.Props.Ldif
import Verif.Props.LdifRead
import Verif.Props.Netgroups
import Verif.Props.PagedResults
import Verif.Props.Prep
import Verif.Props.Registry
import Verif.Props.Search
import Verif.Props.StartTls
import Verif.Props.Syntax
import Verif.Props.Syntaxes
import Verif.Props.Transaction
import Verif.Props.ConnUri
import Verif.Props.BaseSchema
/-!
More concrete cases that meet the hypotheses of theorems proved elsewhere: each example applies the theorem named above it.
-/
namespace Laurelin.Props.Instances

section filters
open Laurelin Spec Props Netgroups

/-- `c60_parse_print` -/
example : ∃ f, parseStandard (str "(&(cn=a)(!(sn=c)))") = .ok f ∧ printFilter f = str "(&(cn=a)(!(sn=c)))" := by
  have h : parseStandard (str "(&(cn=a)(!(sn=c)))") = .ok (.and [.equality (str "cn") (str "a"), .not (.equality (str "sn") (str "c"))]) := by rfl
  refine ⟨_, h, (c60_parse_print _ _ h ?_).1⟩
  intro ht
  cases ht with
  | and hm ht =>
    simp only [List.mem_cons, List.not_mem_nil, or_false] at hm
    rcases hm with rfl | rfl
    · cases ht
    · cases ht with
      | not ht => cases ht

/-- `c67_selects`, `c67_restricts` -/
example (val : Filter → Tri) (hm : evalFilter val (.and [.equality (str "objectClass") (str "nisNetgroup"), .equality (str "cn") (str "a")]) = some true) :
    parseUnified (ngFilter (str "(cn=a)")) = .ok (.and [.equality (str "objectClass") (str "nisNetgroup"), .equality (str "cn") (str "a")]) ∧
    val (.equality (str "objectClass") (str "nisNetgroup")) = some true := by
  have h := c67_selects (str "(cn=a)") (.equality (str "cn") (str "a")) (by rfl)
  exact ⟨h.2, c67_restricts _ _ h.1 val hm⟩

end filters

section tls
open Laurelin Spec Props Tls

/-- `c70_private`: an `ldaps` connection of one's own, whatever follows -/
example (es : List Tls.Ev) :
    let st1 := (({} : Tls.St).connect id allTrusted exNet (str "ldaps://db") false true {} (.ok certDb) [[⟨1, .entry dseTls⟩, ⟨1, .done true⟩]]).2
    ∃ s, (st1.run id allTrusted exNet es).socks[0]? = some s ∧ SecureChan allTrusted s.host true {} s.chan ∧ ∀ m ∈ s.sent, m.chan = s.chan := by
  obtain ⟨s, h1, h2, h3, _⟩ := c70_private id allTrusted exNet {} (str "ldaps://db") (str "db") {} (.ok certDb) [[⟨1, .entry dseTls⟩, ⟨1, .done true⟩]] (by rfl) (by decide +kernel) es
  exact ⟨s, h1, h2, h3⟩

/-- `c70_ldaps`: a history with such a socket -/
example : ∃ s ∈ (({} : Tls.St).run id allTrusted exNet [.connect (str "ldaps://db") true true {} (.ok certDb) [[⟨1, .entry dseTls⟩, ⟨1, .done true⟩]], .operation 0 [[⟨2, .result true⟩]]]).socks,
    s.scheme = str "ldaps" ∧ s.sent.length = 2 ∧ ∀ m ∈ s.sent, m.chan = s.chan := by
  have h : ∃ s, (({} : Tls.St).run id allTrusted exNet [.connect (str "ldaps://db") true true {} (.ok certDb) [[⟨1, .entry dseTls⟩, ⟨1, .done true⟩]], .operation 0 [[⟨2, .result true⟩]]]).socks = [s] ∧
      s.scheme = str "ldaps" ∧ s.sent.length = 2 := ⟨_, by rfl, by decide +kernel, by decide +kernel⟩
  obtain ⟨s, h1, h2, h3⟩ := h
  have hm : s ∈ (({} : Tls.St).run id allTrusted exNet [.connect (str "ldaps://db") true true {} (.ok certDb) [[⟨1, .entry dseTls⟩, ⟨1, .done true⟩]], .operation 0 [[⟨2, .result true⟩]]]).socks := by
    rw [h1]; exact List.mem_singleton.2 rfl
  obtain ⟨_, _, _, h4⟩ := c70_ldaps id allTrusted exNet _ s hm h2
  exact ⟨s, hm, h2, h3, h4⟩

/-- `c70_refused`: a certificate nobody trusts -/
example : ∃ e, ({} : Tls.St).connect id nothingTrusted exNet (str "ldaps://db") true true {} (.ok certDb) [] = (.err e, {}) :=
  c70_refused id nothingTrusted exNet {} (str "ldaps://db") (str "db") (.inet (str "db") 636) true {} certDb [] (by rfl) (by rfl) (.inr rfl) (.inl rfl)

/-- `c71_started`: the grant comes, and the next query goes through TLS -/
example : ∃ st' c s, (({} : Tls.St).run id allTrusted exNet [openDb]).insts[0]? = some c ∧ (({} : Tls.St).run id allTrusted exNet [openDb]).socks[c.sock]? = some s ∧
    (({} : Tls.St).run id allTrusted exNet [openDb]).startTls allTrusted 0 none {} (.ok certDb) [[⟨2, .ext true none⟩]] [[⟨3, .entry dseTls⟩, ⟨3, .done true⟩]] = (.ok, st') :=
  ⟨_, _, _, by rfl, by rfl, by rfl⟩

/-- `c71_denied` -/
example : ∃ c s, (({} : Tls.St).run id allTrusted exNet [openDb]).insts[0]? = some c ∧ (({} : Tls.St).run id allTrusted exNet [openDb]).socks[c.sock]? = some s ∧
    s.startedTls = false ∧ oidStartTls ∈ c.dse.2.exts ∧ s.nextId ≤ Conn.maxInt ∧ s.unbound = false ∧ s.chan ≠ .dead ∧
    FirstFor s.nextId [[⟨1, .result true⟩, ⟨2, .ext false none⟩]] (.ext false none) :=
  ⟨_, _, rfl, rfl, rfl, by decide, by decide, rfl, by decide, [⟨1, .result true⟩], [], rfl, by decide⟩

end tls

section search
open Laurelin Laurelin.Controls Laurelin.Spec Laurelin.Search Props

/-- `c29_exists`, `c29_failed_search`, `c29_no_verdict` -/
example (code : Nat) (hcode : code ≠ 0 ∧ code ≠ 32 ∧ code ≠ 10) :
    exists_ (exEnv false false) false none ⟨[], []⟩ ([.entry 1 [], .ref [str "ldap://x"] []] ++ .done 32 [] [] :: []) = some (.ok true) ∧
    getObj (exEnv false false) false none ⟨[], []⟩ ([.entry 1 [], .ref [str "ldap://x"] []] ++ .done code [] [] :: []) = some (.error .ldapError) ∧
    getObj (exEnv false false) false none ⟨[], []⟩ [.entry 1 [], .ref [str "ldap://x"] []] = none := by
  have h : Pairwise2 (Received (exEnv false false)) [.entry 1 [], .ref [str "ldap://x"] []] [[.entry 1 []], [.ref [str "ldap://x"] []]] :=
    .cons (.entry _ _ _ _ rfl) (.cons (.ref _ _ _ _ rfl rfl) .nil)
  exact ⟨c29_exists _ _ _ _ _ _ _ _ _ h (.inr rfl) rfl, (c29_failed_search _ _ _ _ _ _ _ _ _ h hcode rfl).1, (c29_no_verdict _ ⟨[], []⟩ _ _ none h).2.2.1⟩

end search

section dn
open Laurelin Spec Props

/-- `c45_mod_dn_partial`: renaming `cn=a,dc=x` to `cn=b` below `ou=y,dc=x` -/
example : ∃ dn', ((⟨some (str "cn=a,dc=x"), true, CIDict.empty, .sub, none⟩ : LObj).modDn (List.map Char.toLower) (fun _ => .ok .default) false (.ok ()) (fun _ => .ok ())
      (str "cn=b") true (some (str "ou=y,dc=x"))).1.dn = some dn' ∧ IsDn dn' [str "cn=b", str "ou=y", str "dc=x"] := by
  have h := c45_mod_dn_partial (lower := List.map Char.toLower) (typeOf := fun _ => .ok .default) false (.ok ()) (fun _ => .ok ())
    ⟨some (str "cn=a,dc=x"), true, CIDict.empty, .sub, none⟩ (str "cn=a,dc=x") (str "cn=a") (str "cn=b") [str "dc=x"] true
    (some [str "ou=y", str "dc=x"]) rfl rfl ⟨by decide, by decide⟩ (by decide) (by decide) (by decide) (by decide)
  exact (h.2.1 (by rfl)).2.2

end dn

section ext
open Laurelin Ext Props

/-- `c68_built_in_only`, `c68_same_instance`: a restricted connection gets the shipped netgroups extension, again and again -/
example : ∃ i g' o', access (fun _ => .ok ⟨some ⟨true, str "netgroups", .ok ()⟩, some ⟨true, .ok ()⟩, none⟩) available props {} ⟨.ldap, true, []⟩ (str "netgroups") = (.ok i, g', o') ∧
    i.mod = str "laurelin.extensions.netgroups" := ⟨_, _, _, by rfl, by decide +kernel⟩

end ext

section syntaxes
open Laurelin Schema SchemaSpec Spec Spec.AttrSchema Laurelin.AttrSchema BaseRules Props

/-- `c77_refused` -/
example : ∃ q, getSyntaxRule (baseSyntaxes ++ netgroupSyntaxes) (str "1.3.6.1.4.1.1466.115.121.1.27") = .ok q ∧ q.validate (str "x") = .error .invalidSyntax := by
  have h : ∃ q, getSyntaxRule (baseSyntaxes ++ netgroupSyntaxes) (str "1.3.6.1.4.1.1466.115.121.1.27") = .ok q ∧ q.validate (str "x") ≠ .ok () :=
    ⟨_, rfl, by decide +kernel⟩
  obtain ⟨q, h1, h2⟩ := h
  refine ⟨q, h1, ?_⟩
  cases hv : q.validate (str "x") with
  | ok u => exact absurd hv h2
  | error e => rw [c77_refused _ q h1 (by decide) (by decide) _ e hv]

end syntaxes

section ldif
open Laurelin Laurelin.Ldif Laurelin.Spec Laurelin.Spec.Ldif Props

/-- `c42_reversible`, `c42_bounded`: a line of 200 characters -/
example : logical (foldLine (List.replicate 200 'a')) = [List.replicate 200 'a'] ∧ ∀ l ∈ physical (foldLine (List.replicate 200 'a')), l.length ≤ 76 :=
  ⟨c42_reversible _ (by decide) (by decide), (c42_bounded _ (by decide)).1⟩

end ldif

section prep
open Laurelin Props

/-- `c36_interchangeable`: "A  b" and "a B" are interchangeable under caseIgnoreMatch -/
example (c : Str) : ruleMatch asciiUni caseIgnorePrep (str "A  b") c = ruleMatch asciiUni caseIgnorePrep (str "a B") c :=
  (c36_interchangeable asciiUni (str "caseIgnoreMatch", caseIgnorePrep) (by decide +kernel) (str "A  b") (str "a B") (by decide +kernel) c).1

/-- `c37_only_first` -/
example : Laurelin.prohibit (str "a\uE000") = .ok (str "a\uE000") := c37_only_first 'a' _ (by decide +kernel)

end prep
end Laurelin.Props.Instances
