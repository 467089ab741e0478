import Verif.Model.ApiOpen
import Verif.Spec.OpenWire
import Verif.Props.Willing
import Verif.Props.ApplySent
/-!
# C96 Opening a connection
-/
set_option linter.unusedSectionVars false
namespace Laurelin.Props
open Laurelin Codec Asn1 Rfc4511 Spec OverWire
open Laurelin.Spec.OverWireS (Answered)
open Laurelin.Spec.DirectoryS (Directory Serves SearchFor Shown Found)
open Spec.OpenS
open WireP (codec shown)
namespace OpenP
open OverWireP DirP

theorem mech_of (uri : Str) (given : Option Str) : MechOf uri given (Api.defaultMech uri given) := by
  cases given with
  | some m => exact .given m rfl
  | none =>
    by_cases h : (str "ldapi:").isPrefixOf uri = true
    · obtain ⟨rest, hrest⟩ := List.isPrefixOf_iff_prefix.1 h
      simp only [Api.defaultMech, Option.isNone_none, Bool.true_and, h, if_true]
      exact .local_ rest rfl hrest.symm
    · simp only [Api.defaultMech, Option.isNone_none, Bool.true_and, h]
      refine .none rfl ?_
      rintro ⟨rest, rfl⟩
      exact h (List.isPrefixOf_iff_prefix.2 ⟨rest, rfl⟩)

/-- values under a name, when names are distinct -/
theorem sent_cases (lower : Str → Str) (l : List (Str × List Bytes)) (h : (l.map (fun p => lower p.1)).Nodup) (name : Str) :
    (∃ p ∈ l, lower p.1 = lower name ∧ (l.filter (fun p => decide (lower p.1 = lower name))).flatMap Prod.snd = p.2) ∨
    ((∀ p ∈ l, lower p.1 ≠ lower name) ∧ (l.filter (fun p => decide (lower p.1 = lower name))).flatMap Prod.snd = []) := by
  induction l with
  | nil => exact .inr ⟨nofun, rfl⟩
  | cons q l ih =>
    rw [List.map_cons, List.nodup_cons] at h
    by_cases hq : lower q.1 = lower name
    · refine .inl ⟨q, List.mem_cons_self, hq, ?_⟩
      have hnone : l.filter (fun p => decide (lower p.1 = lower name)) = [] := by
        rw [List.filter_eq_nil_iff]
        intro p hp hc
        exact h.1 (List.mem_map.2 ⟨p, hp, (of_decide_eq_true hc).trans hq.symm⟩)
      rw [List.filter_cons_of_pos (by simp [hq]), hnone]
      simp
    · rw [List.filter_cons_of_neg (by simp [hq])]
      rcases ih h.2 with ⟨p, hp, h1, h2⟩ | ⟨h1, h2⟩
      · exact .inl ⟨p, List.mem_cons_of_mem _ hp, h1, h2⟩
      · refine .inr ⟨fun p hp => ?_, h2⟩
        rcases List.mem_cons.1 hp with rfl | hp
        · exact hq
        · exact h1 p hp

theorem pair_names {l : List (Str × List Bytes)} {attrs : PDict Str (List AVal)}
    (h : Pairwise2 (fun (p : Str × List Bytes) (q : Str × List AVal) => q.1 = p.1 ∧ Pairwise2 Spec.Wire.Shows p.2 q.2) l attrs) :
    attrs.map Prod.fst = l.map Prod.fst ∧ ∀ p ∈ l, ∃ q ∈ attrs, q.1 = p.1 ∧ Pairwise2 Spec.Wire.Shows p.2 q.2 := by
  induction h with
  | nil => exact ⟨rfl, nofun⟩
  | cons h1 _ ih =>
    refine ⟨by rw [List.map_cons, List.map_cons, ih.1, h1.1], fun p hp => ?_⟩
    rcases List.mem_cons.1 hp with rfl | hp
    · exact ⟨_, List.mem_cons_self, h1⟩
    · obtain ⟨q, hq, h⟩ := ih.2 p hp
      exact ⟨q, List.mem_cons_of_mem _ hq, h⟩

/-- what the object made of an entry shows -/
theorem root_shows (lower : Str → Str) (e : Found) (attrs : PDict Str (List AVal))
    (h : Pairwise2 (fun (p : Str × List Bytes) (q : Str × List AVal) => q.1 = p.1 ∧ Pairwise2 Spec.Wire.Shows p.2 q.2) e.2 attrs) (hd : Distinct lower e) (name : Str) :
    Pairwise2 Spec.Wire.Shows (sent lower e name) (AttrsDict.getAttr lower (CIDict.update lower CIDict.empty attrs) name) := by
  obtain ⟨hn, hp⟩ := pair_names h
  have hnod : (attrs.map (fun kv => lower kv.1)).Nodup := by
    have : attrs.map (fun kv => lower kv.1) = e.2.map (fun p => lower p.1) := by
      have := congrArg (List.map lower) hn
      simpa [List.map_map, Function.comp_def] using this
    rw [this]; exact hd
  obtain ⟨h1, h2⟩ := added_object lower attrs hnod
  rcases sent_cases lower e.2 hd name with ⟨p, hpm, hl, hs⟩ | ⟨hl, hs⟩
  · obtain ⟨q, hq, hq1, hq2⟩ := hp p hpm
    have := h1 q hq
    rw [sent, hs]
    have hsame : AttrsDict.getAttr lower (CIDict.update lower CIDict.empty attrs) name = AttrsDict.getAttr lower (CIDict.update lower CIDict.empty attrs) q.1 := by
      exact PatP.getAttr_fold _ _ _ (by rw [hq1, hl])
    rw [hsame, this]
    exact hq2
  · rw [sent, hs, h2 name (fun kv hkv => ?_)]
    · exact .nil
    · have : kv.1 ∈ attrs.map Prod.fst := List.mem_map_of_mem hkv
      rw [hn] at this
      obtain ⟨p, hpm, hpe⟩ := List.mem_map.1 this
      rw [← hpe]
      exact hl p hpm

/-- the base DN, from octets -/
theorem base_shows (given : Option Str) (dnc ncs : List Bytes) (dnc' ncs' : List AVal) (h1 : Pairwise2 Spec.Wire.Shows dnc dnc') (h2 : Pairwise2 Spec.Wire.Shows ncs ncs') :
    (∀ b', BaseOf (given.map AVal.text) dnc' ncs' b' → ∃ b, BaseOf (given.map utf8Enc) dnc ncs b ∧ Spec.Wire.Shows b b') ∧
    (∀ b, BaseOf (given.map utf8Enc) dnc ncs b → ∃ b', BaseOf (given.map AVal.text) dnc' ncs' b' ∧ Spec.Wire.Shows b b') := by
  cases given with
  | some g =>
    have hg : Spec.Wire.Shows (utf8Enc g) (AVal.text g) := rfl
    constructor
    · intro b' h
      cases h with
      | given h => cases h; exact ⟨_, .given _ rfl, hg⟩
      | default l h => cases h
      | only h => cases h
    · intro b h
      cases h with
      | given h => cases h; exact ⟨_, .given _ rfl, hg⟩
      | default l h => cases h
      | only h => cases h
  | none =>
    constructor
    · intro b' h
      cases h with
      | given h => cases h
      | default l _ h =>
        subst h
        cases h1 with
        | cons hx _ => exact ⟨_, .default _ _ rfl rfl, hx⟩
      | only _ h3 h4 =>
        subst h3 h4
        cases h1
        cases h2 with
        | cons hx ht => cases ht; exact ⟨_, .only _ rfl rfl rfl, hx⟩
    · intro b h
      cases h with
      | given h => cases h
      | default l _ h =>
        subst h
        cases h1 with
        | cons hx _ => exact ⟨_, .default _ _ rfl rfl, hx⟩
      | only _ h3 h4 =>
        subst h3 h4
        cases h1
        cases h2 with
        | cons hx ht => cases ht; exact ⟨_, .only _ rfl rfl rfl, hx⟩

/-- the argument of `get` for the root DSE -/
abbrev rootArgs (V : Type) : SearchArgs V := Api.getArgs [] (some [str "*", str "+"]) []

theorem some_request {V R : Type} (conn : SearchConn V R) (hf : conn.dfltFilter = str "(objectClass=*)") (attrs : List Str) (op : Spec.Wire.Op) (h : SearchFor conn (Api.getArgs [] (some attrs) []) op) :
    op = rootOp conn.dfltDeref conn.dfltTimeout attrs := by
  obtain ⟨n, f, hn, hfil, rfl⟩ := h
  cases hn
  have hf' : f = .present (str "objectClass") := by
    cases hfil with
    | given s h => cases h
    | default _ h =>
      rw [hf] at h
      have h := (parseStandard_iff _ _).2 h
      rw [show parseStandard (str "(objectClass=*)") = .ok (.present (str "objectClass")) by rfl] at h
      cases h
      rfl
  subst hf'
  rfl

theorem root_request {V R : Type} (conn : SearchConn V R) (hf : conn.dfltFilter = str "(objectClass=*)") (op : Spec.Wire.Op) (h : SearchFor conn (rootArgs V) op) : RootRequest conn op :=
  some_request conn hf _ op h

section
variable {V R S D : Type} {dir : Directory D} {contents : S → D} {peer : Peer S} (env : Api.Env V R)

theorem getOne_plain (hs : Serves dir contents peer) (l : Link Received.Decoded S) (hr : SessionP.Ready l.st) (dn : Str) (attrs : Option (List Str)) :
    let x := Api.getOne codec (fun d => d.1.1) peer env l dn attrs []
    SessionP.Ready x.1.st := by
  intro x
  have h := (getOne_step env hs l hr dn attrs []).2.2.2.2
  have hp := searchAll_plain env hs l hr (Api.getArgs dn attrs []) rfl
  refine h ?_ ?_ <;>
  · simp only [Api.getOne]
    split
    · nofun
    · revert hp
      rcases Api.searchAll codec (fun d => d.1.1) peer env l (Api.getArgs dn attrs []) with ⟨l', e | items⟩
      · intro hp hc
        simp only [Except.error.injEq] at hc
        subst hc
        first
        | exact hp.1 rfl
        | exact hp.2 rfl
      · intro _ hc
        simp only [Search.getOneResult] at hc
        split at hc <;> cases hc

end
end OpenP

section
open OpenP
variable {V R S D : Type} {dir : Directory D} {contents : S → D} {peer : Peer S}

/-- **C96 (what an open connection knows).** Opening a connection to a server with some contents changes nothing in it, and the connection can be used afterwards whatever the outcome. If it opens: the server has found
exactly one entry for the request for the root DSE; and if that has no attribute twice (casing ignored), `root_dse` shows exactly the values sent, the SASL mechanisms are those of the server, and the base DN is the
one given, else the server's first default naming context, else its only naming context. The default SASL mechanism is the one given, else EXTERNAL on a local socket. -/
theorem c96_opened (hs : Serves dir contents peer) (env : Api.Env V R) (hf : env.conn.dfltFilter = str "(objectClass=*)") (l : Link Received.Decoded S) (hr : SessionP.Ready l.st) (a : Api.OpenArgs) :
    let x := Api.openConn codec (fun d => d.1.1) peer env l a
    contents x.1.peer = contents l.peer ∧ SessionP.Ready x.1.st ∧
    ∀ o, x.2 = .ok o → MechOf a.uri a.mech o.mech ∧ ∃ op e, RootRequest env.conn op ∧ dir.finds (contents l.peer) op [e] ∧ (Distinct env.lower e →
      (∀ name, Pairwise2 Spec.Wire.Shows (sent env.lower e name) (AttrsDict.getAttr env.lower o.root name)) ∧
      Pairwise2 Spec.Wire.Shows (sent env.lower e (str "supportedSASLMechanisms")) o.mechs ∧
      ∃ b, BaseOf (a.base.map utf8Enc) (sent env.lower e (str "defaultNamingContext")) (sent env.lower e (str "namingContexts")) b ∧ Spec.Wire.Shows b o.base) := by
  intro x
  obtain ⟨g1, g2, _, _, _⟩ := DirP.getOne_step env hs l hr [] (some [str "*", str "+"]) []
  have g3 := getOne_plain env hs l hr [] (some [str "*", str "+"])
  simp only [x, Api.openConn, Api.refreshRootDse]
  revert g1 g2 g3
  rcases Api.getOne codec (fun d => d.1.1) peer env l [] (some [str "*", str "+"]) [] with ⟨l', e | i⟩
  · intro g1 g2 g3
    exact ⟨g1, g3, nofun⟩
  · intro g1 g2 g3
    obtain ⟨op, e, hop, hfinds, hsh⟩ := g2 i rfl
    cases hsh with
    | cons hi _ =>
      obtain ⟨attrs, rfl, hattrs⟩ := hi
      dsimp only
      cases hb : chooseBase (a.base.map AVal.text) (AttrsDict.getAttr env.lower (CIDict.update env.lower CIDict.empty attrs) (str "defaultNamingContext"))
        (AttrsDict.getAttr env.lower (CIDict.update env.lower CIDict.empty attrs) (str "namingContexts")) with
      | error err => exact ⟨g1, g3, nofun⟩
      | ok base =>
        refine ⟨g1, g3, fun o ho => ?_⟩
        simp only [Except.ok.injEq] at ho
        subst ho
        refine ⟨mech_of _ _, op, e, root_request _ hf _ hop, hfinds, fun hd => ⟨fun name => root_shows _ _ _ hattrs hd name, root_shows _ _ _ hattrs hd _, ?_⟩⟩
        exact (base_shows a.base _ _ _ _ (root_shows _ _ _ hattrs hd _) (root_shows _ _ _ hattrs hd _)).1 _ (((c66_base _ _ _).1 _).1 hb)

/-- **C96 (what opening writes).** Whatever the other side sends: opening a connection writes at most one message, the request for the root DSE with no controls; and none only if it raises. -/
theorem c96_written (peer : Peer S) (env : Api.Env V R) (hf : env.conn.dfltFilter = str "(objectClass=*)") (l : Link Received.Decoded (S × List Bytes)) (a : Api.OpenArgs) :
    let x := Api.openConn codec (fun d => d.1.1) (Laurelin.Spec.ApplyS.recorded peer) env l a
    (x.1.peer.2 = l.peer.2 ∧ ∃ e, x.2 = .error e) ∨
    ∃ bs op, x.1.peer.2 = l.peer.2 ++ [bs] ∧ RootRequest env.conn op ∧ (Spec.Wire.message l.st.next op none).Valid ∧ (Spec.Wire.message l.st.next op none).enc Spec.Wire.x690 bs := by
  intro x
  have key : let y := Api.getOne codec (fun d => d.1.1) (Laurelin.Spec.ApplyS.recorded peer) env l [] (some [str "*", str "+"]) []
      (y.1.peer.2 = l.peer.2 ∧ ∃ e, y.2 = .error e) ∨
      ∃ bs op, y.1.peer.2 = l.peer.2 ++ [bs] ∧ RootRequest env.conn op ∧ (Spec.Wire.message l.st.next op none).Valid ∧ (Spec.Wire.message l.st.next op none).enc Spec.Wire.x690 bs := by
    intro y
    simp only [y, Api.getOne]
    by_cases hu : env.conn.unbound = true
    · rw [if_pos hu]; exact .inl ⟨rfl, _, rfl⟩
    · rw [if_neg hu]
      have hall : let z := Api.searchAll codec (fun d => d.1.1) (Laurelin.Spec.ApplyS.recorded peer) env l (rootArgs V)
          (z.1.peer.2 = l.peer.2 ∧ ∃ e, z.2 = .error e) ∨
          ∃ bs op, z.1.peer.2 = l.peer.2 ++ [bs] ∧ RootRequest env.conn op ∧ (Spec.Wire.message l.st.next op none).Valid ∧ (Spec.Wire.message l.st.next op none).enc Spec.Wire.x690 bs := by
        intro z
        simp only [z, Api.searchAll]
        cases hs : ldapSearch env.conn (rootArgs V) with
        | error e => exact .inl ⟨rfl, _, rfl⟩
        | ok sent' =>
          simp only []
          have hc : sent'.ctrls = none := by
            obtain ⟨ws, hw, hc⟩ := ((c65_sent _ _ _).1 hs).2.ctrls
            cases hw
            exact hc
          cases hsend : send l.st.next (Call.search sent'.req).op sent'.ctrls with
          | none => exact .inl ⟨rfl, _, rfl⟩
          | some bs =>
            obtain ⟨o, ho, hv, _, henc⟩ := c79_sent _ _ _ _ hsend
            obtain ⟨hfor, _⟩ := DirP.search_request _ _ _ hs o ho
            rw [hc] at hv henc
            exact .inr ⟨bs, o, rfl, root_request _ hf _ hfor, hv, henc⟩
      revert hall
      show (let z := Api.searchAll codec (fun d => d.1.1) (Laurelin.Spec.ApplyS.recorded peer) env l (rootArgs V); _) → _
      rcases Api.searchAll codec (fun d => d.1.1) (Laurelin.Spec.ApplyS.recorded peer) env l (rootArgs V) with ⟨l', e | items⟩
      · intro h
        rcases h with ⟨h, _⟩ | h
        · exact .inl ⟨h, _, rfl⟩
        · exact .inr h
      · intro h
        rcases h with ⟨_, e, h⟩ | h
        · cases h
        · exact .inr h
  simp only [x, Api.openConn, Api.refreshRootDse]
  revert key
  rcases Api.getOne codec (fun d => d.1.1) (Laurelin.Spec.ApplyS.recorded peer) env l [] (some [str "*", str "+"]) [] with ⟨l', e | i⟩
  · intro h
    rcases h with ⟨h, _⟩ | h
    · exact .inl ⟨h, _, rfl⟩
    · exact .inr h
  · intro h
    rcases h with ⟨_, e, h⟩ | h
    · cases h
    · refine .inr ?_
      cases i with
      | ref u c => exact h
      | entry e c =>
        dsimp only
        split <;> exact h

/-- **C96 (what is known to be supported).** A connection that knows of its root DSE what was sent for it takes for supported exactly the controls and features listed there. -/
theorem c96_learned (env : Api.Env V R) (e : Found) (root : AttrsDict AVal) (h : ∀ name, Pairwise2 Spec.Wire.Shows (sent env.lower e name) (AttrsDict.getAttr env.lower root name)) (oid : Str) :
    (oid ∈ (Api.learned env env.conn root).supportedCtrls ↔ utf8Enc oid ∈ sent env.lower e (str "supportedControl")) ∧
    (oid ∈ (Api.learned env env.conn root).features ↔ utf8Enc oid ∈ sent env.lower e (str "supportedFeatures")) := by
  have key : ∀ (l : List Bytes) (l' : List AVal), Pairwise2 Spec.Wire.Shows l l' → (oid ∈ Api.texts l' ↔ utf8Enc oid ∈ l) := by
    intro l l' hp
    induction hp with
    | nil => simp [Api.texts]
    | @cons b v l l' hb _ ih =>
      cases v with
      | text s =>
        have hb : b = utf8Enc s := hb
        rw [show Api.texts (AVal.text s :: l') = s :: Api.texts l' from rfl, List.mem_cons, List.mem_cons, ih, hb]
        refine or_congr ⟨fun h => by rw [h], fun h => utf8_injective _ _ h⟩ Iff.rfl
      | raw c =>
        have hb : c = b ∧ ∀ s, b ≠ utf8Enc s := hb
        rw [show Api.texts (AVal.raw c :: l') = Api.texts l' from rfl, List.mem_cons, ih]
        exact ⟨.inr, fun h => h.resolve_left (fun h => hb.2 _ h.symm)⟩
  exact ⟨key _ _ (h _), key _ _ (h _)⟩

/-- the connection's environment once it has read its root DSE -/
def OpenP.withRoot (env : Api.Env V R) (root : AttrsDict AVal) : Api.Env V R := { env with conn := Api.learned env env.conn root }

/-- **C96 (nothing is asked that the server does not support).** On a connection that knows of its root DSE what was sent for it: a search with a keyword for a critical control that the root DSE does not list, or for
the attributes of an object class (`@name`) if the root DSE does not list that feature, raises and writes nothing. -/
theorem c96_unsupported (peer : Peer S) (env : Api.Env V R) (e : Found) (root : AttrsDict AVal) (h : ∀ name, Pairwise2 Spec.Wire.Shows (sent env.lower e name) (AttrsDict.getAttr env.lower root name))
    (l : Link Received.Decoded S) (a : SearchArgs V)
    (hu : (∃ kv ∈ a.kwds, ∃ c, env.conn.reg.byKwd.get? kv.1 = some c ∧ wantedCriticality env.conn.dfltCritical kv.2 = true ∧ utf8Enc c.requestOid ∉ sent env.lower e (str "supportedControl")) ∨
      (∃ names, a.attrs = some names ∧ ∃ n, (str "@" ++ n) ∈ names ∧ utf8Enc (str "1.3.6.1.4.1.4203.1.5.2") ∉ sent env.lower e (str "supportedFeatures"))) :
    ∃ err, Api.call codec (fun d => d.1.1) peer (withRoot env root) l (.search a) = (l, .error err) := by
  have key : ∃ err, ldapSearch (withRoot env root).conn a = .error err := by
    cases hs : ldapSearch (withRoot env root).conn a with
    | error err => exact ⟨err, rfl⟩
    | ok s =>
      obtain ⟨hmay, hask⟩ := (c65_sent _ _ _).1 hs
      rcases hu with ⟨kv, hkv, c, hc, hcrit, hno⟩ | ⟨names, hn, n, hm, hno⟩
      · obtain ⟨ws, hws, _⟩ := hask.ctrls
        have hin : kv ∈ a.kwds.filter (isControl env.conn.reg.byKwd) := List.mem_filter.2 ⟨hkv, by simp [isControl, hc]⟩
        obtain ⟨w, hw⟩ := OverWireP.pairwise_mem hws kv hin
        obtain ⟨c', hc', _, _, _, hsup, _⟩ := hw.ex
        rw [show (withRoot env root).conn.reg.byKwd.get? kv.1 = env.conn.reg.byKwd.get? kv.1 from rfl, hc] at hc'
        cases hc'
        exact absurd ((c96_learned env e root h _).1.1 (hsup hcrit)) hno
      · have := hmay.attrs (str "@" ++ n) (by rw [attrsOf, hn]; exact hm)
        have := this.2 rfl
        exact absurd ((c96_learned env e root h _).2.1 this) hno
  obtain ⟨err, herr⟩ := key
  refine ⟨err, ?_⟩
  simp only [Api.call, Api.searchAll, herr]

/-- **C96 (when a connection opens).** With a server that refuses only what cannot be done, has exactly one entry `e` for the root DSE, and can send it: opening succeeds if the base DN is given, or the root DSE has a
default naming context, or exactly one naming context; otherwise it raises `LDAPError`. -/
theorem c96_opens (hw : Laurelin.Spec.WillingS.Willing dir contents peer) (env : Api.Env V R) (hu : Laurelin.Spec.WillingS.Usable env) (hf : env.conn.dfltFilter = str "(objectClass=*)") (l : Link Received.Decoded S)
    (hr : SessionP.Ready l.st) (a : Api.OpenArgs) (e : Found) (hd : Distinct env.lower e)
    (hfits : Laurelin.Spec.WillingS.Fits l.st.next (rootOp env.conn.dfltDeref env.conn.dfltTimeout [str "*", str "+"]) none)
    (hsend : Laurelin.Spec.WillingS.Sendable dir (contents l.peer) l.st.next (rootOp env.conn.dfltDeref env.conn.dfltTimeout [str "*", str "+"]) [e])
    (hone : ∀ found, dir.finds (contents l.peer) (rootOp env.conn.dfltDeref env.conn.dfltTimeout [str "*", str "+"]) found → found = [e]) :
    let x := Api.openConn codec (fun d => d.1.1) peer env l a
    ((∃ o, x.2 = .ok o) ↔ ∃ b, BaseOf (a.base.map utf8Enc) (sent env.lower e (str "defaultNamingContext")) (sent env.lower e (str "namingContexts")) b) ∧
    ((∃ o, x.2 = .ok o) ∨ x.2 = .error .ldapError) := by
  intro x
  have hmay : MaySend env.conn (rootArgs V) := by
    refine ⟨hu.bound, ⟨.present (str "objectClass"), .default rfl ?_⟩, ?_, ⟨[], .nil⟩, nofun⟩
    · rw [hf]
      exact (parseStandard_iff _ _).1 rfl
    · intro n hn
      have hn : n ∈ [str "*", str "+"] := hn
      rcases List.mem_cons.1 hn with rfl | hn
      · exact ⟨nofun, fun h => by cases h⟩
      · rw [List.mem_singleton.1 hn]
        exact ⟨nofun, fun h => by cases h⟩
  have hfor : SearchFor env.conn (rootArgs V) (rootOp env.conn.dfltDeref env.conn.dfltTimeout [str "*", str "+"]) :=
    ⟨_, .present (str "objectClass"), rfl, .default rfl (by rw [hf]; exact (parseStandard_iff _ _).1 rfl), rfl⟩
  obtain ⟨i, hi⟩ := WillP.get_done hw env hu l hr [] (some [str "*", str "+"]) [] ⟨rfl, hmay, _, hfor, hfits, [e], hsend⟩
    (fun op found h1 h2 => ⟨e, hone _ (by rw [← show op = _ from root_request _ hf _ h1]; exact h2)⟩)
  obtain ⟨op, e', hop, hfinds, hsh⟩ := (DirP.getOne_step env (WillP.serves hw) l hr [] (some [str "*", str "+"]) []).2.1 i hi
  rw [show op = _ from root_request _ hf _ hop] at hfinds
  have he := hone _ hfinds
  cases he
  simp only [x, Api.openConn, Api.refreshRootDse]
  revert hi
  rcases Api.getOne codec (fun d => d.1.1) peer env l [] (some [str "*", str "+"]) [] with ⟨l', r⟩
  intro hi
  dsimp only at hi
  subst hi
  cases hsh with
  | cons hi _ =>
    obtain ⟨attrs, rfl, hattrs⟩ := hi
    dsimp only
    have hbase := base_shows a.base _ _ _ _ (root_shows _ _ _ hattrs hd (str "defaultNamingContext")) (root_shows _ _ _ hattrs hd (str "namingContexts"))
    have hc := c66_base (a.base.map AVal.text) (AttrsDict.getAttr env.lower (CIDict.update env.lower CIDict.empty attrs) (str "defaultNamingContext"))
      (AttrsDict.getAttr env.lower (CIDict.update env.lower CIDict.empty attrs) (str "namingContexts"))
    by_cases hex : ∃ b, BaseOf (a.base.map AVal.text) (AttrsDict.getAttr env.lower (CIDict.update env.lower CIDict.empty attrs) (str "defaultNamingContext"))
      (AttrsDict.getAttr env.lower (CIDict.update env.lower CIDict.empty attrs) (str "namingContexts")) b
    · obtain ⟨b, hb⟩ := hex
      rw [(hc.1 b).2 hb]
      obtain ⟨b0, hb0, _⟩ := hbase.1 b hb
      exact ⟨⟨fun _ => ⟨b0, hb0⟩, fun _ => ⟨_, rfl⟩⟩, .inl ⟨_, rfl⟩⟩
    · rw [hc.2.1 hex]
      refine ⟨⟨fun ⟨_, h⟩ => (by cases h), fun ⟨b, hb⟩ => ?_⟩, .inr rfl⟩
      obtain ⟨b', hb', _⟩ := hbase.2 b hb
      exact absurd ⟨b', hb'⟩ hex

end
theorem OpenP.shows_mem {l : List Bytes} {l' : List AVal} (h : Pairwise2 Spec.Wire.Shows l l') (b : Bytes) (v : AVal) (hv : Spec.Wire.Shows b v) : v ∈ l' ↔ b ∈ l := by
  induction h with
  | nil => simp
  | @cons c w l l' hc _ ih =>
    rw [List.mem_cons, List.mem_cons, ih]
    refine or_congr ⟨fun hvw => ?_, fun hbc => ?_⟩ Iff.rfl
    · subst hvw
      cases v with
      | text s => exact (show b = utf8Enc s from hv).trans (show c = utf8Enc s from hc).symm
      | raw x => exact (show x = b ∧ _ from hv).1.symm.trans (show x = c ∧ _ from hc).1
    · subst hbc
      exact WireR.shows_unique b v w hv hc

theorem OpenP.same_iff (a b : List AVal) : Api.sameSet a b = true ↔ ∀ v, v ∈ a ↔ v ∈ b := by
  simp only [Api.sameSet, Bool.and_eq_true, List.all_eq_true, List.contains_iff_mem]
  exact ⟨fun h v => ⟨h.1 v, h.2 v⟩, fun h => ⟨fun v => (h v).1, fun v => (h v).2⟩⟩

section
open OpenP
variable {V R S D : Type} {dir : Directory D} {contents : S → D} {peer : Peer S}

/-- **C96 (downgrade check).** The check after a SASL bind, on a connection whose mechanisms are those of an earlier root DSE `e0`, asks for the mechanisms again; it changes nothing on the server. If it returns although
failing is fatal, the mechanisms that the server lists now are those of `e0`, whatever their order: if they are not, the check does not return. -/
theorem c96_recheck (hs : Serves dir contents peer) (env : Api.Env V R) (hf : env.conn.dfltFilter = str "(objectClass=*)") (l : Link Received.Decoded S) (hr : SessionP.Ready l.st) (e0 : Found) (mechs : List AVal)
    (h0 : Pairwise2 Spec.Wire.Shows (sent env.lower e0 (str "supportedSASLMechanisms")) mechs) (fatal : Bool) :
    let x := Api.recheckMechs codec (fun d => d.1.1) peer env l fatal mechs
    contents x.1.peer = contents l.peer ∧ SessionP.Ready x.1.st ∧
    ∀ q, x.2 = .ok q → ∃ e, dir.finds (contents l.peer) (rootOp env.conn.dfltDeref env.conn.dfltTimeout [str "supportedSASLMechanisms"]) [e] ∧ (Distinct env.lower e →
      (fatal = true → ∀ b, b ∈ sent env.lower e (str "supportedSASLMechanisms") ↔ b ∈ sent env.lower e0 (str "supportedSASLMechanisms")) ∧
      Pairwise2 Spec.Wire.Shows (sent env.lower e (str "supportedSASLMechanisms")) q) := by
  intro x
  obtain ⟨g1, g2, _, _, _⟩ := DirP.getOne_step env hs l hr [] (some [str "supportedSASLMechanisms"]) []
  have g3 := getOne_plain env hs l hr [] (some [str "supportedSASLMechanisms"])
  simp only [x, Api.recheckMechs, Api.queryMechs]
  revert g1 g2 g3
  rcases Api.getOne codec (fun d => d.1.1) peer env l [] (some [str "supportedSASLMechanisms"]) [] with ⟨l', e | i⟩
  · intro g1 g2 g3
    exact ⟨g1, g3, nofun⟩
  · intro g1 g2 g3
    obtain ⟨op, e, hop, hfinds, hsh⟩ := g2 i rfl
    rw [some_request _ hf _ _ hop] at hfinds
    cases hsh with
    | cons hi _ =>
      obtain ⟨attrs, rfl, hattrs⟩ := hi
      dsimp only
      generalize hm : AttrsDict.getAttr env.lower (CIDict.update env.lower CIDict.empty attrs) (str "supportedSASLMechanisms") = now
      have hnow : Distinct env.lower e → Pairwise2 Spec.Wire.Shows (sent env.lower e (str "supportedSASLMechanisms")) now := fun hd => by rw [← hm]; exact root_shows _ _ _ hattrs hd _
      have key : (fatal = true → Api.sameSet mechs now = true) → ∃ e, dir.finds (contents l.peer) (rootOp env.conn.dfltDeref env.conn.dfltTimeout [str "supportedSASLMechanisms"]) [e] ∧ (Distinct env.lower e →
          (fatal = true → ∀ b, b ∈ sent env.lower e (str "supportedSASLMechanisms") ↔ b ∈ sent env.lower e0 (str "supportedSASLMechanisms")) ∧
          Pairwise2 Spec.Wire.Shows (sent env.lower e (str "supportedSASLMechanisms")) now) := by
        intro hsame
        refine ⟨e, hfinds, fun hd => ⟨fun hfat b => ?_, hnow hd⟩⟩
        have hsm := (same_iff _ _).1 (hsame hfat) (shown b)
        rw [shows_mem h0 b _ (WireP.shown_ok b), shows_mem (hnow hd) b _ (WireP.shown_ok b)] at hsm
        exact hsm.symm
      cases hraw : now.any (fun v => match v with | .raw _ => true | .text _ => false) with
      | true =>
        simp only [if_true]
        exact ⟨g1, g3, nofun⟩
      | false =>
        simp only [Bool.false_eq_true, if_false]
        cases hsame : Api.sameSet mechs now with
        | true =>
          simp only [if_true]
          exact ⟨g1, g3, fun q hq => by cases hq; exact key (fun _ => hsame)⟩
        | false =>
          simp only [Bool.false_eq_true, if_false]
          cases hfat : fatal with
          | true => exact ⟨g1, g3, nofun⟩
          | false =>
            subst hfat
            exact ⟨g1, g3, fun q hq => by cases hq; exact key nofun⟩

end

/-! ### Runs on octets -/

namespace OpenP

/-- a root DSE with one naming context -/
def rootEntry : Found := ([], [(str "namingContexts", [utf8Enc (str "dc=a")]), (str "supportedControl", [utf8Enc (str "1.2.3")]), (str "SupportedSASLMechanisms", [utf8Enc (str "PLAIN"), [255]])])

/-- the octets of these messages, with this ID -/
def octets (mid : Int) (ops : List Spec.Wire.Op) : Bytes := ops.flatMap (fun o => (encode filterAlts ldapMessage (Laurelin.Wire.messageV ⟨mid, o, none⟩)).getD [])

/-- a server that answers the first request so, in two pieces -/
def answers (ops : List Spec.Wire.Op) : Peer Unit := fun s _ => (s, [(octets 1 ops).take 5, (octets 1 ops).drop 5])

def openWith (env : Api.Env Unit Unit) (ops : List Spec.Wire.Op) (a : Api.OpenArgs) : Link Received.Decoded (Unit × List Bytes) × Except Err Api.Opened :=
  Api.openConn codec (fun d => d.1.1) (Laurelin.Spec.ApplyS.recorded (answers ops)) env ⟨Session.St.init, ((), [])⟩ a

/-- base DN, mechanisms, default mechanism, or the exception; and how many messages were written -/
def outcome (x : Link Received.Decoded (Unit × List Bytes) × Except Err Api.Opened) : Except Err (AVal × List AVal × Option Str) × Nat :=
  (match x.2 with
    | .error e => .error e
    | .ok o => .ok (o.base, o.mechs, o.mech), x.1.peer.2.length)

def found1 : List Spec.Wire.Op := [Spec.DirectoryS.entryOp rootEntry, .searchResDone (OverWireP.said 0)]
def found2 : List Spec.Wire.Op := [Spec.DirectoryS.entryOp ([], [(str "namingContexts", [utf8Enc (str "dc=a"), utf8Enc (str "dc=b")])]), .searchResDone (OverWireP.said 0)]
def foundDefault : List Spec.Wire.Op := [Spec.DirectoryS.entryOp ([], [(str "namingContexts", [utf8Enc (str "dc=a"), utf8Enc (str "dc=b")]), (str "defaultNamingContext", [utf8Enc (str "dc=b")])]),
  .searchResDone (OverWireP.said 0)]
def foundRef : List Spec.Wire.Op := [.searchResRef [utf8Enc (str "ldap://h/")], .searchResDone (OverWireP.said 0)]

set_option maxRecDepth 100000 in
example : outcome (openWith DirP.sampleEnv found1 ⟨str "ldapi:///", none, none⟩) = (.ok (.text (str "dc=a"), [.text (str "PLAIN"), .raw [255]], some (str "EXTERNAL")), 1) := by
  decide +kernel

set_option maxRecDepth 100000 in
example : outcome (openWith DirP.sampleEnv found2 ⟨str "ldap://h", none, none⟩) = (.error .ldapError, 1) := by
  decide +kernel

set_option maxRecDepth 100000 in
example : outcome (openWith DirP.sampleEnv found2 ⟨str "ldap://h", some (str "dc=z"), some (str "GSSAPI")⟩) = (.ok (.text (str "dc=z"), [], some (str "GSSAPI")), 1) := by
  decide +kernel

set_option maxRecDepth 100000 in
example : outcome (openWith DirP.sampleEnv foundDefault ⟨str "ldap://h", none, none⟩) = (.ok (.text (str "dc=b"), [], none), 1) := by
  decide +kernel

/-- the mechanisms of the root DSE now -/
def foundMechs (names : List Str) : List Spec.Wire.Op := [Spec.DirectoryS.entryOp ([], [(str "supportedSASLMechanisms", names.map utf8Enc)]), .searchResDone (OverWireP.said 0)]

def recheckWith (names : List Str) (fatal : Bool) (orig : List Str) : Except Err (List AVal) :=
  (Api.recheckMechs codec (fun d => d.1.1) (answers (foundMechs names)) DirP.sampleEnv ⟨Session.St.init, ()⟩ fatal (orig.map AVal.text)).2

-- another order is no change; a mechanism more or one less is, which raises only if it is fatal
set_option maxRecDepth 100000 in
example : recheckWith [str "PLAIN", str "GSSAPI"] true [str "GSSAPI", str "PLAIN"] = .ok [.text (str "PLAIN"), .text (str "GSSAPI")] := by decide +kernel
set_option maxRecDepth 100000 in
example : recheckWith [str "PLAIN"] true [str "GSSAPI", str "PLAIN"] = .error .ldapError := by decide +kernel
set_option maxRecDepth 100000 in
example : recheckWith [str "PLAIN", str "GSSAPI"] true [str "PLAIN"] = .error .ldapError := by decide +kernel
set_option maxRecDepth 100000 in
example : recheckWith [str "PLAIN"] false [str "GSSAPI", str "PLAIN"] = .ok [.text (str "PLAIN")] := by decide +kernel

end OpenP

open OpenP in
set_option maxRecDepth 100000 in
/-- **C96 (a reference for the root DSE).** A server that answers with a continuation reference makes the constructor raise `AttributeError`, not an LDAP exception, unless references are fetched. -/
theorem c96_reference : outcome (openWith { DirP.sampleEnv with conn := { DirP.sampleEnv.conn with dfltFetchRefs := false } } foundRef ⟨str "ldap://h", some (str "dc=z"), none⟩) = (.error .attributeError, 1) := by
  decide +kernel

namespace OpenP

/-- the directory with this root DSE only -/
def rootDir : Directory Unit := ⟨fun _ _ _ => False, fun _ _ _ _ => False, fun _ _ found => found = [rootEntry]⟩

/-- the hypotheses of `c96_opens` and `c96_opened` can be met -/
example : ∃ (peer : Peer Unit) (o : Api.Opened), Laurelin.Spec.WillingS.Willing rootDir (fun d => d) peer ∧ Serves rootDir (fun d => d) peer ∧
    (Api.openConn codec (fun d => d.1.1) peer DirP.sampleEnv ⟨Session.St.init, ()⟩ ⟨str "ldap://h", none, none⟩).2 = .ok o := by
  obtain ⟨peer, hw⟩ := c93_server_exists rootDir
  have he := WireR.has_enc ⟨1, Spec.DirectoryS.entryOp rootEntry, none⟩ (octets 1 [Spec.DirectoryS.entryOp rootEntry]) (by decide +kernel)
  have := c96_opens hw DirP.sampleEnv WillP.w_usable rfl ⟨Session.St.init, ()⟩ SessionP.ready_init ⟨str "ldap://h", none, none⟩ rootEntry (by unfold Distinct; decide)
    (WillP.fits_of 1 _ none (by decide +kernel)) ⟨rfl, (by intro e h; rw [List.mem_singleton.1 h]; decide), (by intro e h; rw [List.mem_singleton.1 h]; exact ⟨_, he.2⟩)⟩ (fun _ h => h)
  obtain ⟨o, ho⟩ := this.1.2 ⟨utf8Enc (str "dc=a"), .only _ rfl rfl rfl⟩
  exact ⟨peer, o, hw, WillP.serves hw, ho⟩

end OpenP

end Laurelin.Props
