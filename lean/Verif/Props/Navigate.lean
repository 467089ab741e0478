import Verif.Spec.Navigate
import Verif.Props.SearchRequest
import Verif.Props.Dn
/-!
C87: the relative methods of objects.
-/
namespace Laurelin.Props
open Laurelin Laurelin.Navigate Laurelin.Spec Laurelin.Spec.Navigate

namespace NavP
variable {V R : Type}

theorem rdn_child (o : LObj) (base x dn : Str) (hd : o.dn = some base) (h : o.rdn x = .ok dn) : ChildName o x dn := by
  have hc := c45_rdn o base x hd
  by_cases hx : '=' ∈ x
  · rw [hc.1 hx] at h; cases h; exact .full base hd hx
  · cases ha : o.rdnAttr with
    | none => rw [hc.2.2 hx ha] at h; cases h
    | some a => rw [hc.2.1 hx a ha] at h; cases h; exact .value base a hd hx ha

theorem newObj_sent (lower : Str → Str) (st : NavState) (dn : Str) (attrs : Items) (k : Kwds V) (left : PDict Str (Controls.Kwd V)) :
    (newObj lower st dn attrs k left).1.sent = st.sent := by
  unfold newObj
  repeat' split
  all_goals rfl

theorem newObjs_sent (lower : Str → Str) (k : Kwds V) (left : PDict Str (Controls.Kwd V)) (es : List (Str × Items)) (st : NavState) :
    (newObjs lower k left st es).1.sent = st.sent := by
  induction es generalizing st with
  | nil => rfl
  | cons e es ih =>
    have h1 := newObj_sent lower st e.1 e.2 k left
    rw [newObjs]
    rcases hn : newObj lower st e.1 e.2 k left with ⟨st', x | o⟩
    · rw [hn] at h1; exact h1
    · rw [hn] at h1
      have h2 := ih st'
      simp only at h1 h2 ⊢
      rcases hn2 : newObjs lower k left st' es with ⟨st2, x | os⟩ <;> rw [hn2] at h2 <;> exact h2.trans h1

theorem newObj_ok {lower : Str → Str} {st st' : NavState} {dn : Str} {attrs : Items} {k : Kwds V} {left : PDict Str (Controls.Kwd V)} {o : LObj}
    (h : newObj lower st dn attrs k left = (st', .ok o)) :
    o = ⟨some dn, true, CIDict.update lower CIDict.empty attrs, k.scope.getD .sub, k.rdnAttr.getD none⟩ ∧ left = [] := by
  unfold newObj at h
  by_cases hl : left.isEmpty = false
  · rw [if_pos hl] at h; cases h
  · rw [if_neg hl] at h
    refine ⟨?_, by cases left with | nil => rfl | cons _ _ => exact absurd rfl hl⟩
    cases ht : k.tag with
    | none => rw [ht] at h; simp only [Prod.mk.injEq, Except.ok.injEq] at h; exact h.2.symm
    | some t =>
      rw [ht] at h
      simp only at h
      split at h
      · cases h
      · simp only [Prod.mk.injEq, Except.ok.injEq] at h; exact h.2.symm

theorem newObjs_ok {lower : Str → Str} {k : Kwds V} {left : PDict Str (Controls.Kwd V)} (es : List (Str × Items)) {st st' : NavState} {os : List LObj}
    (h : newObjs lower k left st es = (st', .ok os)) :
    os = es.map (fun e => ⟨some e.1, true, CIDict.update lower CIDict.empty e.2, k.scope.getD .sub, k.rdnAttr.getD none⟩) := by
  induction es generalizing st st' os with
  | nil => rw [newObjs] at h; cases h; rfl
  | cons e es ih =>
    rw [newObjs] at h
    rcases h1 : newObj lower st e.1 e.2 k left with ⟨st1, x | o⟩
    · rw [h1] at h; cases h
    · rw [h1] at h
      simp only at h
      rcases h2 : newObjs lower k left st1 es with ⟨st2, x | os2⟩
      · rw [h2] at h; cases h
      · rw [h2] at h
        simp only [Prod.mk.injEq, Except.ok.injEq] at h
        rw [← h.2, ih h2, (newObj_ok h1).1]
        rfl

/-- a search sends at most the one request, whose parts are those of the arguments -/
theorem listSearch_sent (env : NavEnv V R) (st : NavState) (a : SearchArgs V) (k : Kwds V) :
    (listSearch env st a k).1.sent = st.sent ∨ ∃ s, ldapSearch env.conn { a with kwds := k.rest } = .ok s ∧
      (listSearch env st a k).1.sent = st.sent ++ [.search s.req] := by
  unfold listSearch
  cases hs : ldapSearch env.conn { a with kwds := k.rest } with
  | error e => exact .inl rfl
  | ok s =>
    refine .inr ⟨s, rfl, ?_⟩
    simp only
    cases env.found s.req with
    | error e => rfl
    | ok es => exact newObjs_sent _ _ _ _ _

theorem oneSearch_sent (env : NavEnv V R) (st : NavState) (a : SearchArgs V) (k : Kwds V) :
    (oneSearch env st a k).1.sent = (listSearch env st a k).1.sent := by
  unfold oneSearch
  rcases listSearch env st a k with ⟨st', e | l⟩
  · rfl
  · simp only; cases Search.getOneResult l <;> rfl

theorem ret_sent (r : NavState × Except Err (List LObj)) : (ret r).1 = r.1 := by
  rcases r with ⟨st, e | l⟩ <;> rfl

theorem listSearch_objs {env : NavEnv V R} {st st' : NavState} {a : SearchArgs V} {k : Kwds V} {l : List LObj}
    (h : listSearch env st a k = (st', .ok l)) :
    ∃ s es, ldapSearch env.conn { a with kwds := k.rest } = .ok s ∧ env.found s.req = .ok es ∧
      l = es.map (fun e => ⟨some e.1, true, CIDict.update env.lower CIDict.empty e.2, k.scope.getD .sub, k.rdnAttr.getD none⟩) := by
  unfold listSearch at h
  cases hs : ldapSearch env.conn { a with kwds := k.rest } with
  | error e => rw [hs] at h; cases h
  | ok s =>
    rw [hs] at h
    simp only at h
    cases hf : env.found s.req with
    | error e => rw [hf] at h; cases h
    | ok es =>
      rw [hf] at h
      exact ⟨s, es, rfl, hf, newObjs_ok es h⟩

theorem oneSearch_objs {env : NavEnv V R} {st st' : NavState} {a : SearchArgs V} {k : Kwds V} {l : List LObj}
    (h : oneSearch env st a k = (st', .ok l)) : ∃ o, l = [o] ∧ listSearch env st a k = (st', .ok [o]) := by
  unfold oneSearch at h
  rcases hl : listSearch env st a k with ⟨st1, e | l1⟩
  · rw [hl] at h; cases h
  · rw [hl] at h
    simp only at h
    match l1, h with
    | [], h => simp only [Search.getOneResult] at h; cases h
    | [o], h =>
      simp only [Search.getOneResult, Prod.mk.injEq, Except.ok.injEq] at h
      exact ⟨o, h.2.symm, by rw [h.1]⟩
    | _ :: _ :: _, h => simp only [Search.getOneResult] at h; cases h

theorem ret_ok {r : NavState × Except Err (List LObj)} {st : NavState} {x : Ret} (h : ret r = (st, .ok x)) :
    ∃ l, x = .objs l ∧ r = (st, .ok l) := by
  rcases r with ⟨st', e | l⟩
  · cases h
  · simp only [ret, Prod.mk.injEq, Except.ok.injEq] at h
    exact ⟨l, h.2.symm, by rw [h.1]⟩

end NavP

variable {V R : Type}

/-- **C87.** Without a connection no relative method sends anything: all but `obj` raise `RuntimeError`, `obj` makes an object without connection. -/
theorem c87_offline (env : NavEnv V R) (st : NavState) (o : LObj) (h : o.conn = false) (c : Call V) :
    (call env st o c).1.sent = st.sent ∧
    ((∀ rdn attrs k, c ≠ .obj rdn attrs k) → call env st o c = (st, .error .runtimeError)) ∧
    (∀ r, (call env st o c).2 = .ok r → ∀ n ∈ r.objects, n.conn = false) := by
  cases c with
  | obj rdn attrs k =>
    refine ⟨?_, fun hn => absurd rfl (hn rdn attrs k), ?_⟩
    · simp only [call, h, Bool.false_eq_true, if_false]
      split
      · rfl
      · cases o.rdn rdn with
        | error e => rfl
        | ok dn =>
          simp only
          have := NavP.newObj_sent env.lower st dn attrs (setDefaults o k) (setDefaults o k).rest
          rcases hn : newObj env.lower st dn attrs (setDefaults o k) (setDefaults o k).rest with ⟨st', e | n⟩ <;> rw [hn] at this <;> exact this
    · intro r hr n hn
      simp only [call, h, Bool.false_eq_true, if_false] at hr
      split at hr
      · cases hr
      · cases hd : o.rdn rdn with
        | error e => rw [hd] at hr; cases hr
        | ok dn =>
          rw [hd] at hr
          simp only at hr
          rcases hno : newObj env.lower st dn attrs (setDefaults o k) (setDefaults o k).rest with ⟨st', e | m⟩
          · rw [hno] at hr; cases hr
          · rw [hno] at hr
            simp only [Except.ok.injEq] at hr
            rw [← hr] at hn
            simp only [Ret.objects, List.mem_singleton] at hn
            rw [hn]
  | getChild rdn attrs k => simp [call, h]
  | addChild rdn attrs k => simp [call, h]
  | deleteChild rdn ctrls => simp [call, h]
  | search filter attrs k => simp [call, h]
  | find rdn attrs k => simp [call, h, LObj.findArgs]
  | compare attr value => simp [call, h]

theorem NavP.search_aims {env : NavEnv V R} {a : SearchArgs V} {s : SearchSent V} (h : ldapSearch env.conn a = .ok s) :
    s.req.base = a.base ∧ s.req.scope = a.scope ∧ s.req.limit = a.limit ∧ (∀ as, a.attrs = some as → s.req.attrs = as) ∧ FilterOf env.conn a s.req.filter := by
  have := ((c65_sent env.conn a s).1 h).2
  refine ⟨this.base, this.scope, this.limit, fun as has => ?_, this.filter⟩
  rw [this.attrs, attrsOf, has]; rfl

theorem NavP.selects {conn : SearchConn V R} {a : SearchArgs V} {f : Filter} (h : FilterOf conn a f) (hs : a.fsyntax = none) : Selects conn a.filter f := by
  cases h with
  | given s e r => rw [e]; rw [hs] at r; exact r
  | default e r => rw [e]; exact r

theorem NavP.find_filter {conn : SearchConn V R} {a : SearchArgs V} {f : Filter} {s : Str} (h : FilterOf conn { a with filter := some s, fsyntax := some .standard } f) :
    ReadsAs .standard s f := by
  cases h with
  | given s e r => cases e; exact r
  | default e r => cases e

theorem NavP.full_rdn (o : LObj) (x r : Str) (h : o.fullRdn x = .ok r) : FullRdn o x r := by
  unfold LObj.fullRdn at h
  by_cases hx : '=' ∈ x
  · rw [if_neg (by simpa using hx)] at h; cases h; exact .full hx
  · rw [if_pos (by simpa using hx)] at h
    cases ha : o.rdnAttr with
    | none => rw [ha] at h; cases h
    | some a => rw [ha] at h; cases h; exact .value a hx ha

/-- **C87.** Each relative method sends at most one request, and it is about exactly the entry the method is about: the child of that name, or the
object itself. -/
theorem c87_aims (env : NavEnv V R) (st : NavState) (o : LObj) (base : Str) (hd : o.dn = some base) (c : Call V) :
    (call env st o c).1.sent = st.sent ∨ ∃ rq, Aims env.conn o c rq ∧ (call env st o c).1.sent = st.sent ++ [rq] := by
  by_cases hc : o.conn = false
  · exact .inl (c87_offline env st o hc c).1
  have hct : o.conn = true := by simpa using hc
  cases c with
  | obj rdn attrs k =>
    refine .inl ?_
    simp only [call, hct, if_true]
    cases o.rdn rdn with
    | error e => rfl
    | ok dn =>
      simp only
      have := NavP.newObj_sent env.lower st dn attrs (setDefaults o k) (setDefaults o k).rest
      rcases hn : newObj env.lower st dn attrs (setDefaults o k) (setDefaults o k).rest with ⟨st', e | n⟩ <;> rw [hn] at this <;> exact this
  | getChild rdn attrs k =>
    simp only [call, hct, Bool.true_eq_false, if_false]
    cases hr : o.rdn rdn with
    | error e => exact .inl rfl
    | ok dn =>
      simp only
      rw [NavP.ret_sent, NavP.oneSearch_sent]
      rcases NavP.listSearch_sent env st { base := dn, scope := .base, attrs, limit := 2 } (setDefaults o k) with h | ⟨s, hs, h⟩
      · exact .inl h
      · obtain ⟨h1, h2, h3, h4, h5⟩ := NavP.search_aims hs
        exact .inr ⟨_, .getChild rdn attrs k s.req (h1 ▸ NavP.rdn_child o base rdn dn hd hr) h2 h3 (NavP.selects h5 rfl) h4, h⟩
  | addChild rdn attrs k =>
    simp only [call, hct, Bool.true_eq_false, if_false]
    cases hr : o.rdn rdn with
    | error e => exact .inl rfl
    | ok dn =>
      simp only [addObj]
      split
      · exact .inl rfl
      · rcases Controls.processKwds env.conn.reg (str "add") (setDefaults o k).rest env.conn.supportedCtrls env.conn.dfltCritical false with ⟨e | x, left⟩
        · exact .inl rfl
        · simp only
          have hsn := NavP.newObj_sent env.lower st dn attrs (setDefaults o k) left
          rcases hn : newObj env.lower st dn attrs (setDefaults o k) left with ⟨st1, e | n⟩
          · rw [hn] at hsn; exact .inl hsn
          · rw [hn] at hsn
            simp only at hsn ⊢
            cases env.valid dn n.attrs with
            | error e => exact .inl hsn
            | ok _ =>
              refine .inr ⟨_, .addChild rdn dn attrs k (NavP.rdn_child o base rdn dn hd hr), ?_⟩
              simp only
              cases env.added dn attrs <;> simp only [hsn]
  | deleteChild rdn ctrls =>
    simp only [call, hct, Bool.true_eq_false, if_false]
    cases hr : o.rdn rdn with
    | error e => exact .inl rfl
    | ok dn =>
      simp only [deleteDn]
      split
      · exact .inl rfl
      · split
        · exact .inl rfl
        · refine .inr ⟨_, .deleteChild rdn dn ctrls (NavP.rdn_child o base rdn dn hd hr), ?_⟩
          cases env.deleted dn <;> rfl
  | search filter attrs k =>
    simp only [call, hct, Bool.true_eq_false, if_false, hd, Option.getD_some]
    rw [NavP.ret_sent]
    rcases NavP.listSearch_sent env st { base := base, scope := o.scope, filter, attrs } (setDefaults o k) with h | ⟨s, hs, h⟩
    · exact .inl h
    · obtain ⟨h1, h2, h3, h4, h5⟩ := NavP.search_aims hs
      exact .inr ⟨_, .search filter attrs k s.req (by rw [h1, hd]) h2 h3 (NavP.selects h5 rfl) h4, h⟩
  | find rdn attrs k =>
    simp only [call, LObj.findArgs, hct, Bool.true_eq_false, if_false]
    cases hs : o.scope with
    | base => exact .inl rfl
    | other => exact .inl rfl
    | one =>
      simp only
      cases hr : o.rdn rdn with
      | error e => exact .inl rfl
      | ok dn =>
        simp only
        rw [NavP.ret_sent, NavP.oneSearch_sent]
        rcases NavP.listSearch_sent env st { base := dn, scope := .base, attrs, limit := 2, kwds := k.rest } (setDefaults o k) with h | ⟨s, hss, h⟩
        · exact .inl h
        · obtain ⟨h1, h2, h3, h4, h5⟩ := NavP.search_aims hss
          exact .inr ⟨_, .findOne rdn attrs k s.req hs (h1 ▸ NavP.rdn_child o base rdn dn hd hr) h2 h3 (NavP.selects h5 rfl) h4, h⟩
    | sub =>
      simp only
      cases hr : o.fullRdn rdn with
      | error e => exact .inl rfl
      | ok r =>
        simp only
        rw [NavP.ret_sent, NavP.oneSearch_sent]
        rcases NavP.listSearch_sent env st { base := o.dn.getD (str "None"), scope := .sub, filter := some (str "(" ++ r ++ str ")"), fsyntax := some .standard, attrs, limit := 2, kwds := k.rest } (setDefaults o k) with h | ⟨s, hss, h⟩
        · exact .inl h
        · obtain ⟨h1, h2, h3, h4, h5⟩ := NavP.search_aims hss
          exact .inr ⟨_, .findBelow rdn r attrs k s.req hs (by rw [h1, hd]; rfl) h2 h3 (NavP.full_rdn o rdn r hr) (NavP.find_filter h5) h4, h⟩
  | compare attr value =>
    simp only [call, hct, Bool.true_eq_false, if_false, hd, Option.getD_some, compareDn]
    split
    · exact .inl rfl
    · refine .inr ⟨_, .compare attr value base hd, ?_⟩
      cases env.compared base attr value <;> rfl

/-- **C87.** On a closed connection no relative method sends anything or tags anything, and all but `obj` raise. -/
theorem c87_unbound (env : NavEnv V R) (st : NavState) (o : LObj) (h : env.conn.unbound = true) (c : Call V) (hc : ∀ rdn attrs k, c ≠ .obj rdn attrs k) :
    ∃ e, call env st o c = (st, .error e) := by
  by_cases hon : o.conn = false
  · exact ⟨_, (c87_offline env st o hon c).2.1 hc⟩
  have hct : o.conn = true := by simpa using hon
  have hl : ∀ (a : SearchArgs V) k, listSearch env st a k = (st, .error .unbound) := by
    intro a k
    simp [listSearch, ldapSearch, h]
  have ho : ∀ (a : SearchArgs V) k, ret (oneSearch env st a k) = (st, .error .unbound) := by
    intro a k
    simp [oneSearch, hl, ret]
  cases c with
  | obj rdn attrs k => exact absurd rfl (hc rdn attrs k)
  | getChild rdn attrs k =>
    simp only [call, hct, Bool.true_eq_false, if_false, ho]
    cases o.rdn rdn <;> exact ⟨_, rfl⟩
  | addChild rdn attrs k =>
    simp only [call, hct, Bool.true_eq_false, if_false, addObj, h, if_true]
    cases o.rdn rdn <;> exact ⟨_, rfl⟩
  | deleteChild rdn ctrls =>
    simp only [call, hct, Bool.true_eq_false, if_false, deleteDn, h, if_true]
    cases o.rdn rdn <;> exact ⟨_, rfl⟩
  | search filter attrs k =>
    simp only [call, hct, Bool.true_eq_false, if_false, hl]
    exact ⟨_, rfl⟩
  | find rdn attrs k =>
    simp only [call]
    cases o.findArgs rdn attrs k.rest with
    | error e => exact ⟨_, rfl⟩
    | ok a => exact ⟨_, ho _ _⟩
  | compare attr value =>
    simp only [call, hct, Bool.true_eq_false, if_false, compareDn, h, if_true]
    exact ⟨_, rfl⟩

/-- **C87.** `add_child`, `delete_child` and `compare` end as the server says: they return only after the server accepted their request, `compare`
with the server's verdict, and when the server answered their request with an error they raise that error. -/
theorem c87_outcome (env : NavEnv V R) (st st' : NavState) (o : LObj) (c : Call V) (res : Except Err Ret) (h : call env st o c = (st', res))
    (hc : (∃ x as k, c = .addChild x as k) ∨ (∃ x cs, c = .deleteChild x cs) ∨ (∃ a v, c = .compare a v)) :
    (∀ r, res = .ok r → ∃ rq, st'.sent = st.sent ++ [rq] ∧ Answers env rq (.ok r)) ∧
    (∀ rq e, st'.sent = st.sent ++ [rq] → res = .error e → Answers env rq (.error e)) := by
  have same : ∀ {s : List Req} {rq : Req}, s = s ++ [rq] → False := by
    intro s rq e
    have := congrArg List.length e
    simp at this
  have inj : ∀ {s : List Req} {x y : Req}, s ++ [x] = s ++ [y] → x = y := by
    intro s x y e
    simpa using e
  have off : ∀ (st' : NavState) (res : Except Err Ret) (e : Err), ((st, .error e) : NavState × Except Err Ret) = (st', res) →
      (∀ r, res = .ok r → ∃ rq, st'.sent = st.sent ++ [rq] ∧ Answers env rq (.ok r)) ∧
      (∀ rq e, st'.sent = st.sent ++ [rq] → res = .error e → Answers env rq (.error e)) := by
    intro st' res e h
    simp only [Prod.mk.injEq] at h
    obtain ⟨rfl, rfl⟩ := h
    exact ⟨fun r hr => (by cases hr), fun rq e hs _ => (same hs).elim⟩
  by_cases hon : o.conn = false
  · rw [(c87_offline env st o hon c).2.1 (by
      rcases hc with ⟨_, _, _, rfl⟩ | ⟨_, _, rfl⟩ | ⟨_, _, rfl⟩ <;> intro _ _ _ e <;> cases e)] at h
    exact off _ _ _ h
  have hct : o.conn = true := by simpa using hon
  rcases hc with ⟨x, as, k, rfl⟩ | ⟨x, cs, rfl⟩ | ⟨a, v, rfl⟩
  · simp only [call, hct, Bool.true_eq_false, if_false] at h
    cases hr : o.rdn x with
    | error e => rw [hr] at h; exact off _ _ _ h
    | ok dn =>
      rw [hr] at h
      simp only [addObj] at h
      by_cases hu : env.conn.unbound = true
      · rw [if_pos hu] at h; exact off _ _ _ h
      rw [if_neg hu] at h
      rcases hk : Controls.processKwds env.conn.reg (str "add") (setDefaults o k).rest env.conn.supportedCtrls env.conn.dfltCritical false with ⟨e | y, left⟩
      · rw [hk] at h; exact off _ _ _ h
      rw [hk] at h
      simp only at h
      have hsn := NavP.newObj_sent env.lower st dn as (setDefaults o k) left
      rcases hn : newObj env.lower st dn as (setDefaults o k) left with ⟨st1, e | n⟩
      · rw [hn] at h hsn
        simp only [Prod.mk.injEq] at h
        obtain ⟨rfl, rfl⟩ := h
        exact ⟨fun r hr => (by cases hr), fun rq e hs _ => (same (hs.symm.trans hsn).symm).elim⟩
      rw [hn] at h hsn
      simp only at h hsn
      cases hv : env.valid dn n.attrs with
      | error e =>
        rw [hv] at h
        simp only [Prod.mk.injEq] at h
        obtain ⟨rfl, rfl⟩ := h
        exact ⟨fun r hr => (by cases hr), fun rq e hs _ => (same (hs.symm.trans hsn).symm).elim⟩
      | ok u =>
        rw [hv] at h
        simp only at h
        cases ha : env.added dn as with
        | error e =>
          rw [ha] at h
          simp only [Prod.mk.injEq] at h
          obtain ⟨rfl, rfl⟩ := h
          refine ⟨fun r hr => (by cases hr), fun rq e' hs he => ?_⟩
          cases he
          simp only [hsn] at hs
          rw [← inj hs]
          exact .added dn as (.error e) [] ha
        | ok u =>
          rw [ha] at h
          simp only [Prod.mk.injEq] at h
          obtain ⟨rfl, rfl⟩ := h
          refine ⟨fun r hr => ⟨.add dn as, by simp only [hsn], ?_⟩, fun rq e' hs he => (by cases he)⟩
          cases hr
          exact .added dn as _ _ (by rw [ha])
  · simp only [call, hct, Bool.true_eq_false, if_false] at h
    cases hr : o.rdn x with
    | error e => rw [hr] at h; exact off _ _ _ h
    | ok dn =>
      rw [hr] at h
      simp only [deleteDn] at h
      by_cases hu : env.conn.unbound = true
      · rw [if_pos hu] at h; exact off _ _ _ h
      rw [if_neg hu] at h
      rcases hk : Controls.processKwds env.conn.reg (str "delete") cs env.conn.supportedCtrls env.conn.dfltCritical true with ⟨e | y, left⟩
      · rw [hk] at h; exact off _ _ _ h
      rw [hk] at h
      simp only at h
      cases ha : env.deleted dn with
      | error e =>
        rw [ha] at h
        simp only [Prod.mk.injEq] at h
        obtain ⟨rfl, rfl⟩ := h
        refine ⟨fun r hr => (by cases hr), fun rq e' hs he => ?_⟩
        cases he
        rw [← inj hs]
        exact .deleted dn _ (by rw [ha]; rfl)
      | ok u =>
        rw [ha] at h
        simp only [Prod.mk.injEq] at h
        obtain ⟨rfl, rfl⟩ := h
        refine ⟨fun r hr => ⟨.delete dn, rfl, ?_⟩, fun rq e' hs he => (by cases he)⟩
        cases hr
        exact .deleted dn _ (by rw [ha]; rfl)
  · simp only [call, hct, Bool.true_eq_false, if_false, compareDn] at h
    by_cases hu : env.conn.unbound = true
    · rw [if_pos hu] at h; exact off _ _ _ h
    rw [if_neg hu] at h
    cases ha : env.compared (o.dn.getD (str "None")) a v with
    | error e =>
      rw [ha] at h
      simp only [Prod.mk.injEq] at h
      obtain ⟨rfl, rfl⟩ := h
      refine ⟨fun r hr => (by cases hr), fun rq e' hs he => ?_⟩
      cases he
      rw [← inj hs]
      exact .compared _ a v _ (by rw [ha]; rfl)
    | ok b =>
      rw [ha] at h
      simp only [Prod.mk.injEq] at h
      obtain ⟨rfl, rfl⟩ := h
      refine ⟨fun r hr => ⟨.compare (o.dn.getD (str "None")) a v, rfl, ?_⟩, fun rq e' hs he => (by cases he)⟩
      cases hr
      exact .compared _ a v _ (by rw [ha]; rfl)

/-- **C87.** The objects a relative method returns: those `obj` and `add_child` make have the child's name and the given attributes, those a search
gives are the entries the server sent, in order; all are on the same connection and have the settings given with the call, or else those of the
object the method was called on. -/
theorem c87_objects (env : NavEnv V R) (st st' : NavState) (o : LObj) (base : Str) (hd : o.dn = some base) (c : Call V) (r : Ret)
    (h : call env st o c = (st', .ok r)) :
    (∀ n ∈ r.objects, n.conn = o.conn ∧ n.scope = (given c).1.getD o.scope ∧ n.rdnAttr = (given c).2.getD o.rdnAttr) ∧
    (∀ x attrs k, (c = .obj x attrs k ∨ c = .addChild x attrs k) → ∃ n dn, r.objects = [n] ∧ ChildName o x dn ∧ n.dn = some dn ∧
      n.attrs = CIDict.update env.lower CIDict.empty attrs) ∧
    ((∃ f as k, c = .search f as k) ∨ (∃ x as k, c = .getChild x as k ∨ c = .find x as k) →
      ∃ rq es, env.found rq = .ok es ∧ st'.sent = st.sent ++ [.search rq] ∧
        r.objects.map (fun n => (n.dn, n.attrs)) = es.map (fun e => (some e.1, CIDict.update env.lower CIDict.empty e.2))) ∧
    (∀ x as k, c = .getChild x as k ∨ c = .find x as k → r.objects.length = 1) := by
  by_cases hoc : o.conn = false
  · -- only `obj`
    have hoff := c87_offline env st o hoc c
    rw [h] at hoff
    cases c with
    | obj rdn attrs k =>
      simp only [call, hoc, Bool.false_eq_true, if_false] at h
      split at h
      · cases h
      · cases hdn : o.rdn rdn with
        | error e => rw [hdn] at h; cases h
        | ok dn =>
          rw [hdn] at h
          simp only at h
          rcases hn : newObj env.lower st dn attrs (setDefaults o k) (setDefaults o k).rest with ⟨st1, e | n⟩
          · rw [hn] at h; cases h
          · rw [hn] at h
            simp only [Prod.mk.injEq, Except.ok.injEq] at h
            obtain ⟨-, rfl⟩ := h
            obtain ⟨rfl, -⟩ := NavP.newObj_ok hn
            refine ⟨?_, ?_, ?_, ?_⟩
            · intro m hm
              simp only [Ret.objects, List.mem_singleton] at hm
              rw [hm]
              exact ⟨hoc.symm, rfl, rfl⟩
            · intro x as k' hx
              rcases hx with hx | hx
              · injection hx with h1 h2 h3
                subst h1 h2 h3
                exact ⟨_, dn, rfl, NavP.rdn_child o base rdn dn hd hdn, rfl, rfl⟩
              · cases hx
            · rintro (⟨f, as, k', hx⟩ | ⟨x, as, k', hx | hx⟩) <;> cases hx
            · rintro x as k' (hx | hx) <;> cases hx
    | getChild rdn attrs k => exact absurd (hoff.2.1 nofun) (by simp)
    | addChild rdn attrs k => exact absurd (hoff.2.1 nofun) (by simp)
    | deleteChild rdn ctrls => exact absurd (hoff.2.1 nofun) (by simp)
    | search filter attrs k => exact absurd (hoff.2.1 nofun) (by simp)
    | find rdn attrs k => exact absurd (hoff.2.1 nofun) (by simp)
    | compare attr value => exact absurd (hoff.2.1 nofun) (by simp)
  have hct : o.conn = true := by simpa using hoc
  -- searches
  have searches : ∀ (a : SearchArgs V) (k : Kwds V) (l : List LObj), listSearch env st a (setDefaults o k) = (st', .ok l) →
      (∀ n ∈ l, n.conn = o.conn ∧ n.scope = k.scope.getD o.scope ∧ n.rdnAttr = k.rdnAttr.getD o.rdnAttr) ∧
      ∃ rq es, env.found rq = .ok es ∧ st'.sent = st.sent ++ [.search rq] ∧
        l.map (fun n => (n.dn, n.attrs)) = es.map (fun e => (some e.1, CIDict.update env.lower CIDict.empty e.2)) := by
    intro a k l hl
    obtain ⟨s, es, h1, h2, rfl⟩ := NavP.listSearch_objs hl
    refine ⟨?_, s.req, es, h2, ?_, ?_⟩
    · intro n hn
      obtain ⟨e, -, rfl⟩ := List.mem_map.1 hn
      exact ⟨hct.symm, rfl, rfl⟩
    · have hu : (listSearch env st a (setDefaults o k)).1.sent = st.sent ++ [.search s.req] := by
        simp only [listSearch, h1, h2]
        exact NavP.newObjs_sent _ _ _ _ _
      rw [hl] at hu
      exact hu
    · rw [List.map_map]; rfl
  cases c with
  | obj rdn attrs k =>
    simp only [call, hct, if_true] at h
    cases hdn : o.rdn rdn with
    | error e => rw [hdn] at h; cases h
    | ok dn =>
      rw [hdn] at h
      simp only at h
      rcases hn : newObj env.lower st dn attrs (setDefaults o k) (setDefaults o k).rest with ⟨st1, e | n⟩
      · rw [hn] at h; cases h
      · rw [hn] at h
        simp only [Prod.mk.injEq, Except.ok.injEq] at h
        obtain ⟨-, rfl⟩ := h
        obtain ⟨rfl, -⟩ := NavP.newObj_ok hn
        refine ⟨?_, ?_, ?_, ?_⟩
        · intro m hm
          simp only [Ret.objects, List.mem_singleton] at hm
          rw [hm]
          exact ⟨hct.symm, rfl, rfl⟩
        · intro x as k' hx
          rcases hx with hx | hx
          · injection hx with h1 h2 h3
            subst h1 h2 h3
            exact ⟨_, dn, rfl, NavP.rdn_child o base rdn dn hd hdn, rfl, rfl⟩
          · cases hx
        · rintro (⟨f, as, k', hx⟩ | ⟨x, as, k', hx | hx⟩) <;> cases hx
        · rintro x as k' (hx | hx) <;> cases hx
  | getChild rdn attrs k =>
    simp only [call, hct, Bool.true_eq_false, if_false] at h
    cases hdn : o.rdn rdn with
    | error e => rw [hdn] at h; cases h
    | ok dn =>
      rw [hdn] at h
      obtain ⟨l, rfl, hr1⟩ := NavP.ret_ok h
      obtain ⟨n, rfl, hr2⟩ := NavP.oneSearch_objs hr1
      obtain ⟨h1, h2⟩ := searches _ k _ hr2
      refine ⟨h1, ?_, fun _ => h2, fun _ _ _ _ => rfl⟩
      rintro x as k' (hx | hx) <;> cases hx
  | addChild rdn attrs k =>
    simp only [call, hct, Bool.true_eq_false, if_false] at h
    cases hdn : o.rdn rdn with
    | error e => rw [hdn] at h; cases h
    | ok dn =>
      rw [hdn] at h
      simp only [addObj] at h
      split at h
      · cases h
      · rcases hp : Controls.processKwds env.conn.reg (str "add") (setDefaults o k).rest env.conn.supportedCtrls env.conn.dfltCritical false with ⟨e | x, left⟩
        · rw [hp] at h; cases h
        · rw [hp] at h
          simp only at h
          rcases hn : newObj env.lower st dn attrs (setDefaults o k) left with ⟨st1, e | n⟩
          · rw [hn] at h; cases h
          · rw [hn] at h
            simp only at h
            cases hv : env.valid dn n.attrs with
            | error e => rw [hv] at h; cases h
            | ok _ =>
              rw [hv] at h
              simp only at h
              cases ha : env.added dn attrs with
              | error e => rw [ha] at h; cases h
              | ok _ =>
                rw [ha] at h
                simp only [Prod.mk.injEq, Except.ok.injEq] at h
                obtain ⟨-, rfl⟩ := h
                obtain ⟨rfl, -⟩ := NavP.newObj_ok hn
                refine ⟨?_, ?_, ?_, ?_⟩
                · intro m hm
                  simp only [Ret.objects, List.mem_singleton] at hm
                  rw [hm]
                  exact ⟨hct.symm, rfl, rfl⟩
                · intro x as k' hx
                  rcases hx with hx | hx
                  · cases hx
                  · injection hx with h1 h2 h3
                    subst h1 h2 h3
                    exact ⟨_, dn, rfl, NavP.rdn_child o base rdn dn hd hdn, rfl, rfl⟩
                · rintro (⟨f, as, k', hx⟩ | ⟨x, as, k', hx | hx⟩) <;> cases hx
                · rintro x as k' (hx | hx) <;> cases hx
  | deleteChild rdn ctrls =>
    have : r.objects = [] := by
      simp only [call, hct, Bool.true_eq_false, if_false] at h
      cases hdn : o.rdn rdn with
      | error e => rw [hdn] at h; cases h
      | ok dn =>
        rw [hdn] at h
        simp only [deleteDn] at h
        split at h
        · cases h
        · split at h
          · cases h
          · split at h
            · cases h
            · simp only [Prod.mk.injEq, Except.ok.injEq] at h; rw [← h.2]; rfl
    refine ⟨by simp [this], ?_, ?_, ?_⟩
    · rintro x as k' (hx | hx) <;> cases hx
    · rintro (⟨f, as, k', hx⟩ | ⟨x, as, k', hx | hx⟩) <;> cases hx
    · rintro x as k' (hx | hx) <;> cases hx
  | search filter attrs k =>
    simp only [call, hct, Bool.true_eq_false, if_false] at h
    obtain ⟨l, rfl, hr1⟩ := NavP.ret_ok h
    obtain ⟨h1, h2⟩ := searches _ k _ hr1
    refine ⟨h1, ?_, fun _ => h2, ?_⟩
    · rintro x as k' (hx | hx) <;> cases hx
    · rintro x as k' (hx | hx) <;> cases hx
  | find rdn attrs k =>
    simp only [call] at h
    cases hf : o.findArgs rdn attrs k.rest with
    | error e => rw [hf] at h; cases h
    | ok a =>
      rw [hf] at h
      obtain ⟨l, rfl, hr1⟩ := NavP.ret_ok h
      obtain ⟨n, rfl, hr2⟩ := NavP.oneSearch_objs hr1
      obtain ⟨h1, h2⟩ := searches _ k _ hr2
      refine ⟨h1, ?_, fun _ => h2, fun _ _ _ _ => rfl⟩
      rintro x as k' (hx | hx) <;> cases hx
  | compare attr value =>
    have : r.objects = [] := by
      simp only [call, hct, Bool.true_eq_false, if_false, compareDn] at h
      split at h
      · cases h
      · split at h
        · cases h
        · simp only [Prod.mk.injEq, Except.ok.injEq] at h; rw [← h.2]; rfl
    refine ⟨by simp [this], ?_, ?_, ?_⟩
    · rintro x as k' (hx | hx) <;> cases hx
    · rintro (⟨f, as, k', hx⟩ | ⟨x, as, k', hx | hx⟩) <;> cases hx
    · rintro x as k' (hx | hx) <;> cases hx

theorem NavP.last_cons {A : Type} (x : Option A) (l : List (Option A)) (a : A) : lastGiven (x :: l) a = lastGiven l (x.getD a) := by
  cases x with
  | none => simp [lastGiven]
  | some x =>
    simp only [lastGiven, List.filterMap_cons, id_eq, Option.getD_some]
    cases l.filterMap id with
    | nil => rfl
    | cons y ys => simp [List.getLast?_cons]

theorem NavP.has_dn {env : NavEnv V R} {st st1 : NavState} {o n : LObj} {base : Str} {c : Call V} {r : Ret} (hd : o.dn = some base)
    (hc : call env st o c = (st1, .ok r)) (hn : n ∈ r.objects) : ∃ b, n.dn = some b := by
  have h := c87_objects env st st1 o base hd c r hc
  have made : ∀ x attrs k, (c = .obj x attrs k ∨ c = .addChild x attrs k) → ∃ b, n.dn = some b := by
    intro x attrs k hx
    obtain ⟨m, dn, hm, -, hdn, -⟩ := h.2.1 x attrs k hx
    rw [hm, List.mem_singleton] at hn
    exact ⟨dn, by rw [hn, hdn]⟩
  have foundIn : ((∃ f as k, c = .search f as k) ∨ (∃ x as k, c = .getChild x as k ∨ c = .find x as k)) → ∃ b, n.dn = some b := by
    intro hx
    obtain ⟨rq, es, -, -, he⟩ := h.2.2.1 hx
    have hm : (n.dn, n.attrs) ∈ r.objects.map (fun n => (n.dn, n.attrs)) := List.mem_map.2 ⟨n, hn, rfl⟩
    rw [he] at hm
    obtain ⟨e, -, he⟩ := List.mem_map.1 hm
    exact ⟨e.1, (congrArg Prod.fst he).symm⟩
  cases c with
  | obj x attrs k => exact made x attrs k (.inl rfl)
  | addChild x attrs k => exact made x attrs k (.inr rfl)
  | getChild x as k => exact foundIn (.inr ⟨x, as, k, .inl rfl⟩)
  | find x as k => exact foundIn (.inr ⟨x, as, k, .inr rfl⟩)
  | search f as k => exact foundIn (.inl ⟨f, as, k, rfl⟩)
  | deleteChild x ctrls =>
    simp only [call] at hc
    split at hc
    · cases hc
    · split at hc
      · cases hc
      · simp only [deleteDn] at hc
        split at hc
        · cases hc
        · split at hc
          · cases hc
          · split at hc
            · cases hc
            · simp only [Prod.mk.injEq, Except.ok.injEq] at hc; rw [← hc.2] at hn; exact absurd hn (by simp [Ret.objects])
  | compare a v =>
    simp only [call, compareDn] at hc
    split at hc
    · cases hc
    · split at hc
      · cases hc
      · split at hc
        · cases hc
        · simp only [Prod.mk.injEq, Except.ok.injEq] at hc; rw [← hc.2] at hn; exact absurd hn (by simp [Ret.objects])

/-- **C87.** However far one goes: an object reached by any chain of relative calls has the settings given last on the way, or else those of the object
it started from, and is on a connection exactly if that one was. -/
theorem c87_chain (o m : LObj) (base : Str) (hd : o.dn = some base) (cs : List (Call V)) (h : Reaches (R := R) o cs m) :
    m.conn = o.conn ∧ m.scope = lastGiven (cs.map (fun c => (given c).1)) o.scope ∧
    m.rdnAttr = lastGiven (cs.map (fun c => (given c).2)) o.rdnAttr := by
  induction h generalizing base with
  | here o => exact ⟨rfl, rfl, rfl⟩
  | step env st st1 hc hn _ ih =>
    obtain ⟨b, hb⟩ := NavP.has_dn hd hc hn
    obtain ⟨i1, i2, i3⟩ := ih b hb
    obtain ⟨h1, h2, h3⟩ := (c87_objects _ _ _ _ base hd _ _ hc).1 _ hn
    refine ⟨i1.trans h1, ?_, ?_⟩
    · rw [List.map_cons, NavP.last_cons, i2, h2]
    · rw [List.map_cons, NavP.last_cons, i3, h3]

/-- **C87.** Going down by `obj` and `add_child` with full RDNs builds the name from the path: the RDNs, the last one first, then the start. -/
theorem c87_path (o m : LObj) (base : Str) (hd : o.dn = some base) (cs : List (Call V)) (xs : List Str)
    (hx : Pairwise2 (fun c x => '=' ∈ x ∧ ((∃ as k, c = .obj x as k) ∨ ∃ as k, c = .addChild x as k)) cs xs)
    (h : Reaches (R := R) o cs m) : m.dn = some (pyJoin (str ",") (xs.reverse ++ [base])) := by
  induction h generalizing base xs with
  | here o => cases hx; simpa [pyJoin] using hd
  | step env st st1 hc hn _ ih =>
    cases hx with
    | cons h1 h2 =>
      rename_i o n m c cs' r _ x xs
      obtain ⟨heq, hcc⟩ := h1
      have key : n.dn = some (x ++ str "," ++ base) := by
        have hcase : ∃ as k, c = .obj x as k ∨ c = .addChild x as k := by
          rcases hcc with ⟨as, k, e⟩ | ⟨as, k, e⟩
          · exact ⟨as, k, .inl e⟩
          · exact ⟨as, k, .inr e⟩
        obtain ⟨as, k, hck⟩ := hcase
        obtain ⟨n', dn, e1, e2, e3, -⟩ := (c87_objects _ _ _ _ base hd _ _ hc).2.1 x as k hck
        rw [e1, List.mem_singleton] at hn
        rw [hn, e3]
        cases e2 with
        | full b hb _ => rw [hd] at hb; cases hb; rfl
        | value b a hb hne _ => exact absurd heq hne
      rw [ih _ key _ h2]
      congr 1
      have join2 : ∀ (l : List Str) (a b : Str), pyJoin (str ",") (l ++ [a ++ str "," ++ b]) = pyJoin (str ",") (l ++ [a, b]) := by
        intro l a b
        induction l with
        | nil => simp [pyJoin]
        | cons y l ih =>
          cases l with
          | nil => simp only [List.cons_append, List.nil_append, pyJoin] at ih ⊢
          | cons z l =>
            simp only [List.cons_append, pyJoin] at ih ⊢
            rw [ih]
      rw [show (x :: xs).reverse ++ [base] = xs.reverse ++ [x, base] by simp]
      exact join2 xs.reverse x base

/-- **C87, finding.** `add_child` (and `LDAP.add`) tag the object before the request is sent: when the server refuses the entry the tag stays taken, by an
object that does not exist, and trying again with the same tag is refused without asking the server. -/
theorem c87_failed_add_keeps_tag (env : NavEnv V R) (st : NavState) (o : LObj) (x dn t : Str) (attrs : Items) (e : Err) (hc : o.conn = true)
    (hu : env.conn.unbound = false) (hx : o.rdn x = .ok dn) (ht : st.tags.get? t = none)
    (hv : env.valid dn (CIDict.update env.lower CIDict.empty attrs) = .ok ()) (hs : env.added dn attrs = .error e) :
    let st' : NavState := ⟨st.sent ++ [.add dn attrs], st.tags.set t dn⟩
    call env st o (.addChild x attrs { tag := some t }) = (st', .error e) ∧
    call env st' o (.addChild x attrs { tag := some t }) = (st', .error .tagError) := by
  have hset : (st.tags.set t dn).get? t = some dn := by rw [PDict.get?_set, if_pos rfl]
  constructor
  · simp [call, hc, hx, addObj, hu, setDefaults, Controls.processKwds, PDict.keys, Controls.processLoop, newObj, ht, hv, hs]
  · simp [call, hc, hx, addObj, hu, setDefaults, Controls.processKwds, PDict.keys, Controls.processLoop, newObj, hset]

/-- a connection whose server has these two entries below `o=x` and refuses additions -/
def navEnv (entries : List (Str × Items)) : NavEnv Nat Nat where
  conn := { unbound := false, dfltTimeout := 0, dfltDeref := 3, dfltFetchRefs := true, dfltFollow := true, dfltSyntax := .unified,
            dfltFilter := str "(objectClass=*)", dfltCritical := true, features := [], supportedCtrls := [], reg := {} }
  lower := id
  valid := fun _ _ => .ok ()
  found := fun _ => .ok entries
  added := fun _ _ => .ok ()
  deleted := fun _ => .ok ()
  compared := fun _ _ _ => .ok true

/-- the base object of the examples -/
def navBase : LObj := ⟨some (str "o=x"), true, CIDict.empty, .one, some (str "cn")⟩

/-- **C87, findings.** A keyword that names a constructor argument (`dn`, `attrs_dict`, `ldap_conn`, `self`) passes the check of `search`: the request is
sent, and the `TypeError` comes with the first result, or never if there is none. A `tag` given to a search with two results tags the first
object and then raises `TagError`, so that no object is returned. -/
theorem c87_keyword_findings :
    let r := call (navEnv [(str "cn=a,o=x", [])]) ⟨[], []⟩ navBase (.search none none { rest := [(str "dn", .plain 0)] })
    let r0 := call (navEnv []) ⟨[], []⟩ navBase (.search none none { rest := [(str "dn", .plain 0)] })
    let r2 := call (navEnv [(str "cn=a,o=x", []), (str "cn=b,o=x", [])]) ⟨[], []⟩ navBase (.search none none { tag := some (str "t") })
    (r.1.sent.length = 1 ∧ (match r.2 with | .error e => some e | .ok _ => none) = some .typeError) ∧
    (r0.1.sent.length = 1 ∧ (match r0.2 with | .error _ => none | .ok x => some x.objects.length) = some 0) ∧
    (r2.1.tags = [(str "t", str "cn=a,o=x")] ∧ (match r2.2 with | .error e => some e | .ok _ => none) = some .tagError) := by
  decide +kernel

/-! ### The hypotheses are met -/

/-- a chain of three calls: the settings are inherited, overridden once -/
example : ∃ m : LObj, Reaches (V := Nat) (R := Nat) navBase
    [.obj (str "a") [] { scope := some .sub }, .search none none {}, .addChild (str "ou=b") [] {}] m ∧ m.scope = .sub ∧
      m.rdnAttr = some (str "cn") ∧ m.dn = some (str "ou=b,cn=q,cn=a,o=x") := by
  refine ⟨⟨some (str "ou=b,cn=q,cn=a,o=x"), true, CIDict.empty, .sub, some (str "cn")⟩, ?_, rfl, rfl, rfl⟩
  refine .step (n := ⟨some (str "cn=a,o=x"), true, CIDict.empty, .sub, some (str "cn")⟩) (navEnv []) ⟨[], []⟩ _ (by rfl) (List.mem_cons_self) ?_
  refine .step (n := ⟨some (str "cn=q,cn=a,o=x"), true, CIDict.empty, .sub, some (str "cn")⟩) (navEnv [(str "cn=q,cn=a,o=x", [])]) ⟨[], []⟩ _ (by rfl)
    (List.mem_cons_self) ?_
  refine .step (n := ⟨some (str "ou=b,cn=q,cn=a,o=x"), true, CIDict.empty, .sub, some (str "cn")⟩) (navEnv []) ⟨[], []⟩ _ (by rfl) (List.mem_cons_self) ?_
  exact .here _

/-- each kind of call sends its one request -/
example : (call (navEnv [(str "cn=a,o=x", [])]) ⟨[], []⟩ navBase (.getChild (str "a") none {})).1.sent.length = 1 ∧
    (call (navEnv []) ⟨[], []⟩ navBase (.deleteChild (str "a") [])).1.sent.length = 1 ∧
    (call (navEnv []) ⟨[], []⟩ navBase (.compare (str "cn") (str "a"))).1.sent.length = 1 ∧
    (call (navEnv [(str "cn=a,o=x", [])]) ⟨[], []⟩ { navBase with scope := .sub } (.find (str "a") none {})).1.sent.length = 1 := by
  decide +kernel

end Laurelin.Props
