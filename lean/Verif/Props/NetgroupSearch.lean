import Verif.Spec.NetgroupSearch
import Verif.Props.NetgroupsWire
import Verif.Props.SearchRequest
/-!
# C102: searching for netgroups
-/
namespace Laurelin.Props
open Laurelin Codec Asn1 Rfc4511 Spec
namespace NgS
open Netgroups WireP WireR OverWire OverWireP EntP ObjP
open Laurelin.Spec.DirectoryS (Directory Serves SearchFor Shown)
open Laurelin.Spec.ObjectS (Tree Mirrors)
open Laurelin.Spec.NgSearch

def groupText : Str := str "(objectClass=nisNetgroup)"

theorem group_std : StdText groupText (.equality (str "objectClass") (str "nisNetgroup")) := by
  have h : parseStandard groupText = .ok (.equality (str "objectClass") (str "nisNetgroup")) := by rfl
  exact (parseStandard_iff _ _).1 h

theorem filter_text (x : Str) : Api.ngFilter x = str "(&" ++ (groupText ++ x) ++ str ")" := by
  simp [Api.ngFilter, groupText]

theorem prefix_unique {t u t' u' : Str} {f f' : Filter} (h : StdText t f) (h' : StdText t' f') (heq : t ++ u = t' ++ u') : t = t' ∧ f = f' ∧ u = u' := by
  obtain ⟨g, hg, _, hp⟩ := std_complete h
  obtain ⟨g', hg', _, hp'⟩ := std_complete h'
  cases hg
  cases hg'
  have h1 := hp (t.length + t'.length) u (by omega)
  have h2 := hp' (t.length + t'.length) u' (by omega)
  rw [heq, h2] at h1
  cases h1
  exact ⟨List.append_cancel_right heq, rfl, rfl⟩

theorem one_inv {lv : ListLevel} {s : Str} {l : List Filter} (h : Std lv s l) : lv = .one → ∀ t, s = str "(&" ++ t ++ str ")" → ∃ fs, Std .many t fs ∧ l = [.and fs] := by
  intro hlv t hs
  cases h with
  | comparison ha =>
    obtain ⟨c, t', rfl, hc⟩ := avaText_head _ _ ha
    simp only [List.cons_append, List.nil_append, List.cons.injEq, true_and] at hs
    obtain ⟨rfl, _⟩ := hs
    exact absurd hc (by unfold isLetter isDig; decide)
  | @and t' fs _ hm =>
    have : t' = t := by simpa using hs
    subst this
    exact ⟨fs, hm, rfl⟩
  | or => simp at hs
  | not => simp at hs
  | nil => cases hlv
  | cons => cases hlv

theorem many_inv {lv : ListLevel} {s : Str} {l : List Filter} (h : Std lv s l) : lv = .many → ∀ x, s = groupText ++ x → ∃ fs, Std .many x fs ∧ l = .equality (str "objectClass") (str "nisNetgroup") :: fs := by
  intro hlv x hs
  cases h with
  | nil => cases hs
  | @cons t u f fs h1 h2 =>
    obtain ⟨rfl, rfl, rfl⟩ := prefix_unique h1 group_std hs
    exact ⟨fs, h2, rfl⟩
  | comparison => cases hlv
  | and => cases hlv
  | or => cases hlv
  | not => cases hlv

end NgS

open NgS
open Laurelin.Spec.NgSearch

/-- **C102 (standard syntax).** Whatever text is given: the text sent as the filter is read, if at all, as the conjunction of the object class and of the filters that the given text consists of. -/
theorem c102_standard (x : Str) (f : Filter) : ReadsAs .standard (Api.ngFilter x) f ↔ ∃ fs, Filters x fs ∧ f = groupsAnd fs := by
  rw [filter_text]
  constructor
  · intro h
    obtain ⟨l, h1, h2⟩ := one_inv h rfl _ rfl
    obtain ⟨fs, h3, rfl⟩ := many_inv h1 rfl _ rfl
    simp only [List.cons.injEq, and_true] at h2
    exact ⟨fs, h3, h2⟩
  · rintro ⟨fs, h, rfl⟩
    exact .and (by simp) (.cons group_std h)

/-- **C102 (unified syntax).** If the given text consists of filters in standard syntax, the same. -/
theorem c102_unified_partial (x : Str) (fs : List Filter) (hx : Filters x fs) (f : Filter) : ReadsAs .unified (Api.ngFilter x) f ↔ f = groupsAnd fs := by
  have h0 : LogicText StdText (Api.ngFilter x) (groupsAnd fs) := ⟨[groupsAnd fs], .orOne (fs := [groupsAnd fs]) (.andOne (.leaf ((c102_standard x (groupsAnd fs)).2 ⟨fs, hx, rfl⟩))), rfl⟩
  constructor
  · intro h
    exact c16_unambiguous _ _ _ h h0
  · rintro rfl
    exact h0

theorem NgS.logic_head {lv : LogicLevel} {s : Str} {l : List Filter} (h : Logic SimpleLeaf lv s l) : s.head? = some '(' ∨ s.head? = some 'N' := by
  induction h with
  | leaf h =>
    obtain ⟨t, _, rfl⟩ := h
    exact .inl rfl
  | not => exact .inr rfl
  | paren => exact .inl rfl
  | andOne _ ih => exact ih
  | @andCons a b s t f fs _ _ _ _ ih _ =>
    cases s with
    | nil => simp at ih
    | cons c s => simpa using ih
  | orOne _ ih => exact ih
  | @orCons a b s t fs gs _ _ _ _ ih _ =>
    cases s with
    | nil => simp at ih
    | cons c s => simpa using ih

theorem NgS.simple_not {lv : LogicLevel} {s : Str} {l : List Filter} (h : Logic SimpleLeaf lv s l) : ∀ t, s ≠ '(' :: '&' :: t := by
  induction h with
  | leaf h =>
    obtain ⟨u, ha, rfl⟩ := h
    intro t hs
    obtain ⟨c, t', rfl, hc⟩ := avaText_head _ _ ha
    simp only [List.cons_append, List.nil_append, List.cons.injEq, true_and] at hs
    obtain ⟨rfl, _⟩ := hs
    exact absurd hc (by unfold isLetter isDig; decide)
  | not => intro t hs; simp at hs
  | @paren a b s fs ha _ hl _ =>
    intro t hs
    cases a with
    | cons c a =>
      simp only [List.cons_append, List.nil_append, List.append_assoc, List.cons.injEq, true_and] at hs
      obtain ⟨rfl, _⟩ := hs
      have := ha '&' (by simp)
      revert this
      decide
    | nil =>
      cases s with
      | nil => have := logic_head hl; simp at this
      | cons c s =>
        have := logic_head hl
        simp only [List.cons_append, List.nil_append, List.append_assoc, List.cons.injEq, true_and] at hs
        obtain ⟨rfl, _⟩ := hs
        simp at this
  | andOne _ ih => exact ih
  | @andCons a b s t f fs h1 _ _ _ ih _ =>
    intro u hs
    match s, logic_head h1, ih, hs with
    | [], hh, _, _ => simp at hh
    | [c], hh, _, hs =>
      cases a with
      | nil => simp at hs
      | cons d a =>
        rename_i hba _
        simp only [List.cons_append, List.nil_append, List.append_assoc, List.cons.injEq] at hs
        obtain ⟨_, rfl, _⟩ := hs
        have := hba '&' (by simp)
        revert this
        decide
    | c :: d :: s, _, ih, hs =>
      simp only [List.cons_append, List.append_assoc, List.cons.injEq] at hs
      obtain ⟨rfl, rfl, _⟩ := hs
      exact ih s rfl
  | orOne _ ih => exact ih
  | @orCons a b s t fs gs h1 _ _ _ ih _ =>
    intro u hs
    match s, logic_head h1, ih, hs with
    | [], hh, _, _ => simp at hh
    | [c], hh, _, hs =>
      cases a with
      | nil => simp at hs
      | cons d a =>
        rename_i hba _
        simp only [List.cons_append, List.nil_append, List.append_assoc, List.cons.injEq] at hs
        obtain ⟨_, rfl, _⟩ := hs
        have := hba '&' (by simp)
        revert this
        decide
    | c :: d :: s, _, ih, hs =>
      simp only [List.cons_append, List.append_assoc, List.cons.injEq] at hs
      obtain ⟨rfl, rfl, _⟩ := hs
      exact ih s rfl

/-- **C102 (simple syntax).** On a connection whose default is the simple syntax no text is ever read. -/
theorem c102_simple (x : Str) (f : Filter) : ¬ ReadsAs .simple (Api.ngFilter x) f := by
  rintro ⟨fs, h, _⟩
  exact simple_not h (groupText ++ x ++ str ")") (by rw [filter_text]; simp)

/-- **C102, finding.** In the unified syntax, which is the default, a text can close the conjunction: what is sent is then the disjunction of it with the rest, and entries that are not netgroups are found. -/
theorem c102_unified_witness : ReadsAs .unified (Api.ngFilter (str "(cn=a)) OR (cn=*"))
    (.or [.and [.equality (str "objectClass") (str "nisNetgroup"), .equality (str "cn") (str "a")], .present (str "cn")]) := by
  have h : parseUnified (Api.ngFilter (str "(cn=a)) OR (cn=*")) = .ok (.or [.and [.equality (str "objectClass") (str "nisNetgroup"), .equality (str "cn") (str "a")], .present (str "cn")]) := by rfl
  exact (parseUnified_iff _ _).1 h

/-- … while a text that is a filter in this syntax but not in standard syntax is refused. -/
theorem c102_unified_refused : (∃ f, ReadsAs .unified (str "(cn=a) AND (cn=b)") f) ∧ ¬ ∃ f, ReadsAs .unified (Api.ngFilter (str "(cn=a) AND (cn=b)")) f := by
  refine ⟨⟨_, (parseUnified_iff (str "(cn=a) AND (cn=b)") (.and [.equality (str "cn") (str "a"), .equality (str "cn") (str "b")])).1 (by rfl)⟩, ?_⟩
  rintro ⟨f, h⟩
  have h1 := (parseUnified_iff _ _).2 h
  have h2 : parseUnified (Api.ngFilter (str "(cn=a) AND (cn=b)")) = .error .ldapError := by rfl
  rw [h2] at h1
  cases h1

section
open Netgroups WireP OverWire OverWireP EntP ObjP
open Laurelin.Spec.DirectoryS (Directory Serves SearchFor Shown)
open Laurelin.Spec.ObjectS (Tree Mirrors FoundAs)
variable {V R S D : Type} {dir : Directory D} {contents : S → D} {peer : Peer S} {norm : Str → Str} {mo : Str → Bytes → Bytes → Bool} {at_ : D → Str → Option (Spec.Entry Bytes)} {under : Str → Str → Prop}
  {holds : Spec.Entry Bytes → Spec.Wire.Filter → Prop}

/-- **C102 (down to the octets).** Against any server that serves a directory: `netgroups.search` changes nothing; the objects it gives, if it does not raise, are each of an entry that has the object class of netgroups,
is below the base as the base object's scope says, and shows that entry. The text given consists of filters in standard syntax, or this is the default syntax of the connection. -/
theorem c102_search_partial (hs : Serves dir contents peer) (env : Api.Env V R) (hT : Tree env.lower mo norm under dir at_) (hM : Matching env.lower mo norm dir at_ holds) (typeOf : TypeOf AVal)
    (l : Link Received.Decoded S) (hr : SessionP.Ready l.st) (o : Api.Obj) (attrs : List Str) (x : Str) (hx : env.conn.dfltSyntax = .standard ∨ ∃ fs, Filters x fs) :
    let r := Api.ngSearch codec (fun d => d.1.1) peer env typeOf (.ok o) attrs l x
    contents r.1.peer = contents l.peer ∧ SessionP.Ready r.1.st ∧
    ∀ ns, r.2 = .ok ns → (∃ base f, o.dn = some base ∧ ReadsAs env.conn.dfltSyntax (Api.ngFilter x) f ∧
        FoundAs env.lower norm dir at_ env.conn (contents l.peer) o { base := base, scope := o.scope, filter := some (Api.ngFilter x), attrs := some attrs } ns) ∧
      ∀ i ∈ ns, ∃ n dn e, i = some n ∧ n.dn = some dn ∧ at_ (contents l.peer) (norm dn) = some e ∧ IsNetgroup env.lower mo e ∧ Mirrors env.lower norm at_ (contents l.peer) n := by
  intro r
  simp only [r, Api.ngSearch]
  cases hdn : o.dn with
  | none =>
    simp only [Api.act, hdn]
    exact ⟨trivial, hr, nofun⟩
  | some dn =>
    simp only [Api.act, hdn]
    have g := DirP.searchAll_step env hs l hr { base := dn, scope := o.scope, filter := some (Api.ngFilter x), attrs := some attrs }
    have g4 := DirP.searchAll_plain env hs l hr { base := dn, scope := o.scope, filter := some (Api.ngFilter x), attrs := some attrs } rfl
    revert g g4
    rcases Api.searchAll codec (fun d => d.1.1) peer env l { base := dn, scope := o.scope, filter := some (Api.ngFilter x), attrs := some attrs } with ⟨l', y | items⟩
    · rintro ⟨g1, _, g3, _⟩ g4
      exact ⟨g1, g3 g4.1 g4.2, nofun⟩
    · rintro ⟨g1, g2, g3, _⟩ g4
      obtain ⟨f1, _⟩ := search_objs (G := fun _ _ => True) (R := R) hT (fun _ _ _ _ _ _ _ => trivial) env.conn (contents l.peer) o _ rfl items (g2 items rfl)
      refine ⟨g1, g3 nofun nofun, fun ns hns => ?_⟩
      simp only [Except.ok.injEq] at hns
      subst hns
      have hfa := f1
      obtain ⟨op, found, q1, q2, q3⟩ := f1
      have q1' := q1
      obtain ⟨n, f, _, hf, rfl⟩ := q1
      have hread : ReadsAs env.conn.dfltSyntax (Api.ngFilter x) f := by
        cases hf with
        | given s hs' hrd => cases hs'; exact hrd
        | default hno _ => cases hno
      have hand : ∃ fs, f = groupsAnd fs := by
        rcases hx with hx | ⟨fs, hx⟩
        · rw [hx] at hread
          obtain ⟨fs, _, h⟩ := (c102_standard x f).1 hread
          exact ⟨fs, h⟩
        · cases hsy : env.conn.dfltSyntax with
          | standard =>
            rw [hsy] at hread
            obtain ⟨fs, _, h⟩ := (c102_standard x f).1 hread
            exact ⟨fs, h⟩
          | unified => rw [hsy] at hread; exact ⟨fs, (c102_unified_partial x fs hx f).1 hread⟩
          | simple => rw [hsy] at hread; exact absurd hread (c102_simple x f)
          | other => rw [hsy] at hread; exact hread.elim
      obtain ⟨fs, rfl⟩ := hand
      refine ⟨⟨dn, _, rfl, hread, hfa⟩, ?_⟩
      have hfound := hM.found _ _ _ _ _ _ _ _ _ q2
      clear q2 q1' hfa g2
      generalize items.map (o.made env.lower) = objs at q3
      induction q3 with
      | nil => nofun
      | @cons p i found objs h _ ih =>
        intro j hj
        rcases List.mem_cons.1 hj with rfl | hj
        · obtain ⟨n, rfl, h1, _, _, h4⟩ := h
          obtain ⟨e, he, hh⟩ := hfound p (by simp)
          exact ⟨n, p.1, e, rfl, h1, he, hM.equality e _ _ (hM.and e _ hh _ (by simp [Spec.Wire.ofFilters, Spec.Wire.ofFilter])), h4⟩
        · exact ih (fun q hq => hfound q (by simp [hq])) j hj

/-- With no object tagged as the base nothing is sent. -/
theorem c102_no_base (peer : Peer S) (env : Api.Env V R) (typeOf : TypeOf AVal) (l : Link Received.Decoded S) (e : Err) (attrs : List Str) (x : Str) :
    Api.ngSearch codec (fun d => d.1.1) peer env typeOf (.error e) attrs l x = (l, .error e) := rfl

end

/-! ### A concrete case -/
namespace NgS
open Netgroups WireP OverWire OverWireP EntP ObjP NgP
open Laurelin.Spec.DirectoryS (Directory Serves)
open Laurelin.Spec.ObjectS (Tree)

/-- the entry of a netgroup -/
def sEnt : Spec.Entry Bytes := fun x => if x = str "cn" then [utf8Enc (str "g")] else if x = str "objectclass" then [utf8Enc (str "nisNetgroup")] else []

def sAt : Unit → Str → Option (Spec.Entry Bytes) := fun _ x => if x = str "cn=g,o" then some sEnt else none

def eqClass : Spec.Wire.Filter := .equalityMatch (utf8Enc (str "objectClass")) (utf8Enc (str "nisNetgroup"))
def eqName : Spec.Wire.Filter := .equalityMatch (utf8Enc (str "cn")) (utf8Enc (str "g"))

def sDir : Directory Unit where
  updated _ _ _ := False
  holds _ _ _ _ := False
  finds _ op found := ∃ base scope deref size time attrs, op = .searchRequest base scope deref size time false (.and [eqClass, eqName]) (attrs.map utf8Enc) ∧ found = [(str "cn=g,o", listing lc sEnt attrs)]

theorem s_tree : Tree lc eqb (fun x => x) (fun _ _ => False) sDir sAt := by
  refine ⟨fun _ _ _ h => h.elim, fun _ _ _ _ _ _ _ _ _ _ _ h => h.elim, ?_⟩
  rintro d base scope deref size time f attrs found ⟨base', scope', deref', size', time', attrs', h1, rfl⟩ p hp
  simp only [Spec.Wire.Op.searchRequest.injEq] at h1
  have ha := map_utf8_inj _ _ h1.2.2.2.2.2.2.2
  subst ha
  simp only [List.mem_singleton] at hp
  subst hp
  exact ⟨sEnt, if_pos rfl, listing_faithful lc sEnt attrs⟩

def sHolds (e : Spec.Entry Bytes) (f : Spec.Wire.Filter) : Prop := e = sEnt ∧ (f = .and [eqClass, eqName] ∨ f = eqClass ∨ f = eqName)

theorem s_matching : Matching lc eqb (fun x => x) sDir sAt sHolds := by
  refine ⟨?_, ?_, ?_⟩
  · rintro e l ⟨rfl, h | h | h⟩ f hf
    · cases h
      simp only [List.mem_cons, List.not_mem_nil, or_false] at hf
      exact ⟨rfl, .inr hf⟩
    · cases h
    · cases h
  · rintro e a v ⟨rfl, h | h | h⟩
    · cases h
    · simp only [eqClass, Spec.Wire.Filter.equalityMatch.injEq] at h
      obtain ⟨h1, rfl⟩ := h
      have := utf8_injective _ _ h1
      subst this
      exact ⟨utf8Enc (str "nisNetgroup"), by decide +kernel, by decide +kernel⟩
    · simp only [eqName, Spec.Wire.Filter.equalityMatch.injEq] at h
      obtain ⟨h1, rfl⟩ := h
      have := utf8_injective _ _ h1
      subst this
      exact ⟨utf8Enc (str "g"), by decide +kernel, by decide +kernel⟩
  · rintro d base scope deref size time f attrs found ⟨base', scope', deref', size', time', attrs', h1, rfl⟩ p hp
    simp only [Spec.Wire.Op.searchRequest.injEq] at h1
    simp only [List.mem_singleton] at hp
    subst hp
    exact ⟨sEnt, if_pos rfl, rfl, .inl h1.2.2.2.2.2.2.1⟩

def sAsk : Bytes :=
  tlv 48 ([2, 1, 1] ++ tlv 99 (tlv 4 (utf8Enc (str "o")) ++ [10, 1, 1, 10, 1, 0, 2, 1, 0, 2, 1, 0, 1, 1, 0] ++
    tlv 160 (tlv 163 (tlv 4 (utf8Enc (str "objectClass")) ++ tlv 4 (utf8Enc (str "nisNetgroup"))) ++ tlv 163 (tlv 4 (utf8Enc (str "cn")) ++ tlv 4 (utf8Enc (str "g")))) ++ tlv 48 (tlv 4 (utf8Enc (str "cn")))))

def sMsg : Spec.Wire.Message := ⟨1, .searchRequest (utf8Enc (str "o")) 1 0 0 0 false (.and [eqClass, eqName]) [utf8Enc (str "cn")], none⟩

def sEntry : Bytes := tlv 48 ([2, 1, 1] ++ tlv 100 (tlv 4 (utf8Enc (str "cn=g,o")) ++ tlv 48 (ngAttrBytes (str "cn") (str "g"))))

def sOut (s : Unit) : Unit × List Bytes := (s, [sEntry, [48, 12, 2, 1, 1, 101, 7, 10, 1, 0, 4, 0, 4, 0]])

noncomputable def sPeer : Peer Unit := fun s bs => if bs = sAsk then sOut s else Classical.choose (c90_server_exists sDir) s bs

theorem s_serves : Serves sDir (fun d => d) sPeer := by
  have h0 := (Classical.choose_spec (c90_server_exists sDir)).1
  have hg := WireR.has_enc sMsg sAsk (by decide +kernel)
  refine DirP.override h0 sMsg sAsk hg.1 hg.2 sOut nofun nofun ?_
  rintro s -
  have h1 := WireR.has_enc ⟨1, Spec.DirectoryS.entryOp (str "cn=g,o", [(str "cn", [utf8Enc (str "g")])]), none⟩ sEntry (by decide +kernel)
  have h2 := WireR.has_enc ⟨1, .searchResDone (said 0), none⟩ [48, 12, 2, 1, 1, 101, 7, 10, 1, 0, 4, 0, 4, 0] (by decide +kernel)
  exact ⟨rfl, [(str "cn=g,o", [(str "cn", [utf8Enc (str "g")])])], said 0, by decide, rfl, by decide, ⟨_, .cons h1 (.cons h2 .nil), by cases s; decide +kernel, by cases s; decide +kernel⟩,
    fun _ => ⟨_, _, _, _, _, [str "cn"], rfl, by decide +kernel⟩, fun h => absurd h (by decide)⟩

noncomputable def sRun := Api.ngSearch codec (fun d => d.1.1) sPeer DirP.sampleEnv (fun _ => .ok (.default : AttrType AVal)) (.ok ngBase) [str "cn"] ⟨Session.St.init, ()⟩ (str "(cn=g)")

def oneFound : Except Err (List (Option Api.Obj)) → Option Str
  | .ok [some n] => n.dn
  | _ => none

set_option maxRecDepth 100000 in
theorem s_run : oneFound sRun.2 = some (str "cn=g,o") := by decide +kernel

/-- a search that finds one netgroup, in the default syntax -/
example : ∃ n e, sRun.2 = .ok [some n] ∧ n.dn = some (str "cn=g,o") ∧ sAt () (str "cn=g,o") = some e ∧ IsNetgroup lc eqb e := by
  have hx : Filters (str "(cn=g)") [.equality (str "cn") (str "g")] := by
    have h := (c102_standard (str "(cn=g)") (groupsAnd [.equality (str "cn") (str "g")])).1 ((parseStandard_iff _ _).1 (by rfl))
    obtain ⟨fs, h1, h2⟩ := h
    simp only [groupsAnd, Filter.and.injEq, List.cons.injEq, true_and] at h2
    rwa [h2]
  obtain ⟨_, _, h3⟩ := c102_search_partial s_serves DirP.sampleEnv s_tree s_matching (fun _ => .ok (.default : AttrType AVal)) ⟨Session.St.init, ()⟩ SessionP.ready_init ngBase [str "cn"] (str "(cn=g)") (.inr ⟨_, hx⟩)
  have hr := s_run
  unfold oneFound at hr
  split at hr
  · rename_i n hn
    obtain ⟨m, dn, e, k1, k2, k3, k4, _⟩ := (h3 _ hn).2 (some n) (by simp)
    cases k1
    rw [hr] at k2
    cases k2
    exact ⟨n, e, hn, hr, k3, k4⟩
  · cases hr

end NgS
end Laurelin.Props
