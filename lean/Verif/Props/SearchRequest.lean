import Verif.Spec.SearchRequest
import Verif.Props.Filter
import Verif.Props.Controls
/-!
C65: what `LDAP.search` sends. C66: the base DN of a connection.
-/
namespace Laurelin.Props
open Laurelin Laurelin.Spec Laurelin.Controls
variable {V R : Type}

namespace SreqP

theorem getD_eq {A : Type} (g : Option A) (d : A) : g.getD d = orDefault g d := by cases g <;> rfl

theorem parseFilter_iff (x : FSyntax) (s : Str) (f : Filter) : parseFilter x s = .ok f ↔ ReadsAs x s f := by
  obtain ⟨h1, h2, h3⟩ := c16_languages s f
  cases x <;> simp only [parseFilter, ReadsAs]
  · exact h1
  · exact h2
  · exact h3
  · simp

theorem parseFilter_err (x : FSyntax) (s : Str) (e : Err) (h : parseFilter x s = .error e) : e = .ldapError := by
  obtain ⟨h1, h2, h3⟩ := c16_only_ldap_error s
  cases x <;> simp only [parseFilter] at h
  · rcases h1 with ⟨f, h1⟩ | h1 <;> rw [h1] at h <;> cases h; rfl
  · rcases h2 with ⟨f, h2⟩ | h2 <;> rw [h2] at h <;> cases h; rfl
  · rcases h3 with ⟨f, h3⟩ | h3 <;> rw [h3] at h <;> cases h; rfl
  · cases h; rfl

theorem filter_iff (c : SearchConn V R) (a : SearchArgs V) (f : Filter) :
    parseFilter ((if a.filter.isNone then some FSyntax.standard else a.fsyntax).getD c.dfltSyntax) (a.filter.getD c.dfltFilter) = .ok f ↔
      FilterOf c a f := by
  rw [parseFilter_iff]
  cases h : a.filter with
  | none =>
    simp only [Option.isNone_none, if_true, Option.getD]
    constructor
    · intro hr; exact .default h hr
    · intro hf
      cases hf with
      | given s h' _ => rw [h] at h'; cases h'
      | default _ hr => exact hr
  | some s =>
    simp only [Option.isNone_some, Bool.false_eq_true, if_false, getD_eq]
    constructor
    · intro hr; exact .given s h hr
    · intro hf
      cases hf with
      | given s' h' hr => rw [h] at h'; cases h'; exact hr
      | default h' _ => rw [h] at h'; cases h'

theorem checkAttrs_ok (fs : List Str) (l : List Str) : checkAttrs fs l = .ok () ↔ ∀ n ∈ l, Requestable fs n := by
  induction l with
  | nil => simp [checkAttrs]
  | cons n l ih =>
    cases n with
    | nil => simp [checkAttrs, Requestable]
    | cons c n =>
      simp only [checkAttrs]
      split
      · rename_i h
        simp [Requestable, h.1, h.2]
      · rename_i h
        rw [ih]
        simp only [List.mem_cons, forall_eq_or_imp]
        constructor
        · intro h'
          refine ⟨⟨by simp, fun hc => ?_⟩, h'⟩
          refine Classical.byContradiction fun hn => ?_
          exact h ⟨by simpa using hc, hn⟩
        · exact fun h' => h'.2

theorem checkAttrs_err (fs : List Str) (l : List Str) (e : Err) (h : checkAttrs fs l = .error e) :
    (e = .indexError ∧ [] ∈ l) ∨ (e = .ldapSupport ∧ ∃ n ∈ l, n.head? = some '@' ∧ oidObjClassAttr ∉ fs) := by
  induction l with
  | nil => simp [checkAttrs] at h
  | cons n l ih =>
    cases n with
    | nil => simp only [checkAttrs] at h; cases h; left; simp
    | cons c n =>
      simp only [checkAttrs] at h
      split at h
      · rename_i hc
        cases h
        right
        exact ⟨rfl, c :: n, by simp, by simp [hc.1], hc.2⟩
      · rcases ih h with ⟨h1, h2⟩ | ⟨h1, n', h2, h3⟩
        · left; exact ⟨h1, by simp [h2]⟩
        · right; exact ⟨h1, n', by simp [h2], h3⟩

theorem objKwd_iff (k : Str) : objKwds.contains k = true ↔ ObjKeyword k := by
  simp only [objKwds, ObjKeyword, List.contains_iff_mem, List.mem_cons, List.not_mem_nil, or_false]
  grind

/-- the keyword step of `search`, with the empty-dict shortcut -/
def kwdStep (c : SearchConn V R) (a : SearchArgs V) : Except Err (Option (List Wire)) × PDict Str (Kwd V) :=
  if a.kwds.isEmpty then (Except.ok none, []) else processKwds c.reg (str "search") a.kwds c.supportedCtrls c.dfltCritical false

theorem kwdStep_eq (c : SearchConn V R) (a : SearchArgs V) :
    kwdStep c a = processKwds c.reg (str "search") a.kwds c.supportedCtrls c.dfltCritical false := by
  unfold kwdStep
  split
  · rename_i h
    have : a.kwds = [] := by cases hk : a.kwds with
      | nil => rfl
      | cons x l => rw [hk] at h; cases h
    rw [this]; rfl
  · rfl

theorem search_eq (c : SearchConn V R) (a : SearchArgs V) : ldapSearch c a =
    if c.unbound then .error .unbound
    else
      match parseFilter ((if a.filter.isNone then some FSyntax.standard else a.fsyntax).getD c.dfltSyntax) (a.filter.getD c.dfltFilter) with
      | .error e => .error e
      | .ok f =>
        match checkAttrs c.features (attrsOf a) with
        | .error e => .error e
        | .ok _ =>
          match processKwds c.reg (str "search") a.kwds c.supportedCtrls c.dfltCritical false with
          | (.error e, _) => .error e
          | (.ok ctrls, kwds) =>
            if kwds.all (fun kv => objKwds.contains kv.1) then
              .ok ⟨⟨a.base, a.scope, orDefault a.deref c.dfltDeref, a.limit, orDefault a.timeout c.dfltTimeout, a.attrsOnly, f, attrsOf a⟩,
                ctrls, orDefault a.fetchRefs c.dfltFetchRefs, orDefault a.follow c.dfltFollow, kwds⟩
            else .error .typeError := by
  rw [← kwdStep_eq]
  simp only [ldapSearch, kwdStep, getD_eq, attrsOf]
  rfl

end SreqP
open SreqP

/-- **C65.** `search` sends a request iff the connection is bound, the filter text can be read in the selected syntax, every attribute name
may be requested, the control keywords are all acceptable and every other keyword is one for the result objects; and what it sends is
then determined by its arguments and the connection's defaults, as `Asked` spells out. -/
theorem c65_sent (c : SearchConn V R) (a : SearchArgs V) (s : SearchSent V) :
    ldapSearch c a = .ok s ↔ MaySend c a ∧ Asked c a s := by
  rw [search_eq]
  by_cases hu : c.unbound = true
  · simp only [hu, if_true]
    constructor
    · intro h; cases h
    · rintro ⟨h, _⟩; rw [h.bound] at hu; cases hu
  rw [if_neg hu]
  cases hf : parseFilter ((if a.filter.isNone then some FSyntax.standard else a.fsyntax).getD c.dfltSyntax) (a.filter.getD c.dfltFilter) with
  | error e =>
    constructor
    · intro h; cases h
    · rintro ⟨h, _⟩
      obtain ⟨f, h⟩ := h.filter
      rw [← filter_iff, hf] at h; cases h
  | ok f =>
    simp only []
    cases ha : checkAttrs c.features (attrsOf a) with
    | error e =>
      constructor
      · intro h; cases h
      · rintro ⟨h, _⟩
        have := (checkAttrs_ok _ _).2 h.attrs
        rw [ha] at this; cases this
    | ok u =>
      simp only []
      have h30 := c30_attached c.reg (str "search") a.kwds c.supportedCtrls c.dfltCritical false
      have h30' := (c30_others_untouched c.reg (str "search") a.kwds c.supportedCtrls c.dfltCritical false).2
      generalize processKwds c.reg (str "search") a.kwds c.supportedCtrls c.dfltCritical false = p at h30 h30'
      obtain ⟨p1, p2⟩ := p
      cases p1 with
      | error e =>
        simp only []
        constructor
        · intro h; cases h
        · rintro ⟨h, _⟩
          obtain ⟨ws, hws⟩ := h.ctrls
          have := (h30 _).2 ⟨⟨ws, hws, rfl⟩, by simp⟩
          cases this
      | ok ctrls =>
        have hp2 : p2 = _ := h30' _ rfl
        simp only []
        obtain ⟨⟨ws, hws, hc⟩, -⟩ := (h30 ctrls).1 rfl
        have hall : p2.all (fun kv => objKwds.contains kv.1) = true ↔ ∀ kv ∈ a.kwds, isControl c.reg.byKwd kv = false → ObjKeyword kv.1 := by
          rw [hp2, List.all_eq_true]
          simp only [List.mem_filter, Bool.not_eq_true', objKwd_iff]
          exact ⟨fun h kv h1 h2 => h kv ⟨h1, h2⟩, fun h kv h1 => h kv h1.1 h1.2⟩
        split
        · rename_i hk
          constructor
          · intro h
            cases h
            exact ⟨⟨by simpa using hu, ⟨f, (filter_iff c a f).1 hf⟩, (checkAttrs_ok _ _).1 (by cases u; exact ha), ⟨ws, hws⟩, hall.1 hk⟩,
              ⟨rfl, rfl, rfl, rfl, rfl, rfl, (filter_iff c a f).1 hf, rfl, rfl, rfl, ⟨ws, hws, hc⟩, hp2⟩⟩
          · rintro ⟨_, h⟩
            congr 1
            obtain ⟨⟨rb, rs, rd, rl, rt, ro, rf, ra⟩, sc, sf, so, sk⟩ := s
            obtain ⟨h1, h2, h3, h4, h5, h6, h7, h8, h9, h10, ⟨ws', hws', h11⟩, h12⟩ := h
            have hf' := (filter_iff c a rf).2 h7
            rw [hf] at hf'
            have hcc := (h30 sc).2 ⟨⟨ws', hws', h11⟩, by simp⟩
            simp only [] at h1 h2 h3 h4 h5 h6 h8 h9 h10 h12 hcc
            cases hf'
            cases hcc
            subst h1 h2 h3 h4 h5 h6 h8 h9 h10
            rw [hp2, h12]
        · rename_i hk
          constructor
          · intro h; cases h
          · rintro ⟨h, _⟩
            exact absurd (hall.2 h.rest) hk

/-- **C65, refusals.** A search that is not sent raises, and the exception is one of those of `Wrong`, each with its own cause. -/
theorem c65_refused (c : SearchConn V R) (a : SearchArgs V) (e : Err) (h : ldapSearch c a = .error e) : Wrong c a e := by
  rw [search_eq] at h
  by_cases hu : c.unbound = true
  · rw [if_pos hu] at h; cases h; exact .unbound hu
  rw [if_neg hu] at h
  cases hf : parseFilter ((if a.filter.isNone then some FSyntax.standard else a.fsyntax).getD c.dfltSyntax) (a.filter.getD c.dfltFilter) with
  | error e' =>
    rw [hf] at h
    cases h
    have := parseFilter_err _ _ _ hf
    subst this
    refine .filter ?_
    rintro ⟨f, h⟩
    rw [← filter_iff, hf] at h; cases h
  | ok f =>
    simp only [hf] at h
    cases ha : checkAttrs c.features (attrsOf a) with
    | error e' =>
      rw [ha] at h
      cases h
      rcases checkAttrs_err _ _ _ ha with ⟨rfl, h⟩ | ⟨rfl, n, h1, h2, h3⟩
      · exact .emptyName h
      · exact .feature n h1 h2 h3
    | ok u =>
      simp only [ha] at h
      have h30 := c30_refused c.reg (str "search") a.kwds c.supportedCtrls c.dfltCritical false
      have h30' := (c30_others_untouched c.reg (str "search") a.kwds c.supportedCtrls c.dfltCritical false).2
      generalize processKwds c.reg (str "search") a.kwds c.supportedCtrls c.dfltCritical false = p at h30 h30' h
      obtain ⟨p1, p2⟩ := p
      cases p1 with
      | error e' =>
        simp only [] at h
        cases h
        rcases h30 e rfl with ⟨pre, kv, post, ws, h1, _, h2⟩ | ⟨_, h, _⟩
        · refine .control kv e ?_ h2
          have : kv ∈ a.kwds.filter (isControl c.reg.byKwd) := by rw [h1]; simp
          exact (List.mem_filter.1 this).1
        · cases h
      | ok ctrls =>
        have hp2 : p2 = _ := h30' _ rfl
        simp only [] at h
        split at h
        · cases h
        · rename_i hk
          cases h
          rw [hp2] at hk
          simp only [List.all_eq_true, List.mem_filter, Bool.not_eq_true', objKwd_iff] at hk
          obtain ⟨kv, hk⟩ := Classical.not_forall.1 hk
          obtain ⟨⟨h1, h2⟩, h3⟩ := Classical.not_imp.1 hk
          exact .keyword kv h1 h2 h3

/-- **C65, exactly one of the two.** Whenever something is wrong nothing is sent (in particular a request is never sent with a
filter or attribute list other than the one asked for). -/
theorem c65_wrong_not_sent (c : SearchConn V R) (a : SearchArgs V) (e : Err) (h : Wrong c a e) : ∃ e', ldapSearch c a = .error e' := by
  cases hs : ldapSearch c a with
  | error e' => exact ⟨e', rfl⟩
  | ok s =>
    exfalso
    have hm := ((c65_sent c a s).1 hs).1
    cases h with
    | unbound h => rw [hm.bound] at h; cases h
    | filter h => exact h hm.filter
    | emptyName h => exact (hm.attrs _ h).1 rfl
    | feature n h1 h2 h3 => exact h3 ((hm.attrs n h1).2 h2)
    | control kv e' h1 h2 =>
      obtain ⟨ws, hws⟩ := hm.ctrls
      have hin : kv ∈ a.kwds.filter (isControl c.reg.byKwd) := by
        refine List.mem_filter.2 ⟨h1, ?_⟩
        cases h2 <;> rename_i hg _ <;> simp [isControl] <;> grind
      have : ∀ (l : List (Str × Kwd V)) ws, Pairwise2 (Attached c.reg.byKwd (str "search") c.supportedCtrls c.dfltCritical) l ws → kv ∈ l →
          ∃ w, Attached c.reg.byKwd (str "search") c.supportedCtrls c.dfltCritical kv w := by
        intro l ws h
        induction h with
        | nil => intro h; cases h
        | cons hp _ ih =>
          intro h
          rcases List.mem_cons.1 h with rfl | h
          · exact ⟨_, hp⟩
          · exact ih h
      obtain ⟨w, ⟨x, hx1, hx2, _, _, hx5, b, hx6, _⟩⟩ := this _ _ hws hin
      cases h2 with
      | notApplicable d hd1 hd2 => rw [hx1] at hd1; cases hd1; rw [hx2] at hd2; cases hd2
      | unsupported d hd1 _ hd3 hd4 => rw [hx1] at hd1; cases hd1; exact hd4 (hx5 hd3)
      | badValue d _ hd1 _ _ hd4 => rw [hx1] at hd1; cases hd1; rw [hx6] at hd4; cases hd4
    | keyword kv h1 h2 h3 => exact h3 (hm.rest kv h1 h2)

/-- a connection for the examples -/
def exSConn : SearchConn Nat Nat :=
  { unbound := false, dfltTimeout := 7, dfltDeref := 3, dfltFetchRefs := true, dfltFollow := true, dfltSyntax := .unified,
    dfltFilter := str "(objectClass=*)", dfltCritical := false, features := [], supportedCtrls := [str "1"],
    reg := ({} : Reg Nat Nat).registerAll [{ method := .names [str "search"], keyword := str "k", requestOid := str "1", prepare := fun n => .ok [n], handle := fun _ => .ok 0 }] }

/-- arguments for the examples -/
def exSArgs : SearchArgs Nat where
  base := str "dc=x"
  scope := .one
  filter := some (str "(cn=a) OR (cn=b)")
  attrs := some [str "cn", str "+"]
  limit := 5
  follow := some false
  kwds := [(str "tag", .plain 4), (str "k", .critical 9)]

/-- the statements are about real searches: one with everything given … -/
example : (ldapSearch exSConn exSArgs).map
      (fun s => (s.req.base, s.req.scope, s.req.timeout, s.req.limit, s.req.attrs, s.ctrls, s.follow)) =
    .ok (str "dc=x", .one, 7, 5, [str "cn", str "+"], some [⟨str "1", true, some [9]⟩], false) := by rfl
/-- … its filter … -/
example : (ldapSearch exSConn { base := str "dc=x", filter := some (str "(cn=a) OR (cn=b)") }).map (fun s => s.req.filter) =
    .ok (.or [.equality (str "cn") (str "a"), .equality (str "cn") (str "b")]) := by rfl
/-- … one with nothing given, in a connection whose default syntax is none … -/
example : (ldapSearch { exSConn with dfltSyntax := .other } { base := str "dc=x" }).map (fun s => (s.req.filter, s.req.attrs)) =
    .ok (.present (str "objectClass"), [str "*"]) := by rfl
/-- … and refused ones -/
example : (ldapSearch exSConn { base := [], attrs := some [str "@person"] }).map (fun s => s.req.base) = .error .ldapSupport ∧
    (ldapSearch exSConn { base := [], attrs := some [[]] }).map (fun s => s.req.base) = .error .indexError ∧
    (ldapSearch exSConn { base := [], kwds := [(str "bogus", .plain 1)] }).map (fun s => s.req.base) = .error .typeError ∧
    (ldapSearch exSConn { base := [], filter := some (str "(cn=a) OR (cn=b)"), fsyntax := some .standard }).map (fun s => s.req.base) =
      .error .ldapError := by
  refine ⟨rfl, rfl, rfl, rfl⟩

/-- **C66.** The constructor succeeds in choosing a base DN `b` iff `b` is the given one, else the (first) default naming context the
server reports, else its one naming context; in every other case it raises `LDAPError` – it never guesses. -/
theorem c66_base {A : Type} (given : Option A) (dnc ncs : List A) :
    (∀ b, chooseBase given dnc ncs = .ok b ↔ BaseOf given dnc ncs b) ∧
    ((¬ ∃ b, BaseOf given dnc ncs b) ↔ chooseBase given dnc ncs = .error .ldapError) := by
  have key : ∀ b, chooseBase given dnc ncs = .ok b ↔ BaseOf given dnc ncs b := by
    intro b
    constructor
    · intro h
      unfold chooseBase at h
      split at h
      · cases h; exact .given b rfl
      · split at h
        · cases h; exact .default b _ rfl rfl
        · split at h
          · cases h
          · cases h; exact .only b rfl rfl rfl
          · cases h
    · intro h
      cases h with
      | given h => subst h; rfl
      | default l h1 h2 => subst h1 h2; rfl
      | only h1 h2 h3 => subst h1 h2 h3; rfl
  refine ⟨key, ?_⟩
  constructor
  · intro h
    cases hc : chooseBase given dnc ncs with
    | ok b => exact absurd ⟨b, (key b).1 hc⟩ h
    | error e =>
      unfold chooseBase at hc
      split at hc
      · cases hc
      · split at hc
        · cases hc
        · split at hc <;> cases hc <;> rfl
  · rintro h ⟨b, hb⟩
    rw [(key b).2 hb] at h; cases h

/-- **C66.** There is at most one such base. -/
theorem c66_unique {A : Type} (given : Option A) (dnc ncs : List A) (b b' : A) (h : BaseOf given dnc ncs b) (h' : BaseOf given dnc ncs b') :
    b = b' := by
  have a := ((c66_base given dnc ncs).1 b).2 h
  rw [((c66_base given dnc ncs).1 b').2 h'] at a
  exact (Except.ok.inj a).symm

example : chooseBase none [] [str "dc=a"] = .ok (str "dc=a") ∧ chooseBase none [] [str "dc=a", str "dc=b"] = .error .ldapError ∧
    chooseBase none [str "dc=z"] [str "dc=a", str "dc=b"] = .ok (str "dc=z") ∧ chooseBase (some []) [str "dc=z"] [] = .ok [] :=
  ⟨rfl, rfl, rfl, rfl⟩

end Laurelin.Props
