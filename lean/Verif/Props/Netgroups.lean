import Verif.Spec.Netgroups
import Verif.Lemmas.PDict
import Verif.Props.Filter
/-!
Properties C50 (triples and member lists), C51 (expansion), C67 (search for netgroups).
-/
namespace Laurelin.Props
open Laurelin Netgroups Spec Spec.Ng

namespace NgP

theorem tripleEnd_iff (s d : Str) : tripleEnd s = some d ↔ ')' ∉ d ∧ (s = d ++ [')'] ∨ s = d ++ [')', '\n']) := by
  unfold tripleEnd
  constructor
  · intro h
    split at h
    · rename_i d' hs
      cases h
      obtain ⟨h1, h2⟩ := (splitFirst_some _ _ _ _).1 hs
      exact ⟨h1, .inl h2⟩
    · rename_i d' hs
      cases h
      obtain ⟨h1, h2⟩ := (splitFirst_some _ _ _ _).1 hs
      exact ⟨h1, .inr h2⟩
    · cases h
  · rintro ⟨h, rfl | rfl⟩
    · simp only [(splitFirst_some _ _ d []).2 ⟨h, rfl⟩]
    · simp only [(splitFirst_some _ _ d ['\n']).2 ⟨h, rfl⟩]

theorem fields_iff (s h u d : Str) : tripleFields s = some (h, u, d) ↔ TripleLine s h u d := by
  constructor
  · intro hs
    unfold tripleFields at hs
    split at hs
    · rename_i s
      split at hs
      · cases hs
      · rename_i h' s1 h1
        split at hs
        · cases hs
        · rename_i u' s2 h2
          split at hs
          · cases hs
          · rename_i d' h3
            cases hs
            obtain ⟨a1, rfl⟩ := (splitFirst_some _ _ _ _).1 h1
            obtain ⟨a2, rfl⟩ := (splitFirst_some _ _ _ _).1 h2
            obtain ⟨a3, rfl | rfl⟩ := (tripleEnd_iff _ _).1 h3
            · exact .inl ⟨by simp, a1, a2, a3⟩
            · exact .inr ⟨_, ⟨rfl, a1, a2, a3⟩, by simp⟩
    · cases hs
  · have key : ∀ e, (e = [')'] ∨ e = [')', '\n']) → ',' ∉ h → ',' ∉ u → ')' ∉ d →
        tripleFields ('(' :: (h ++ ',' :: (u ++ ',' :: (d ++ e)))) = some (h, u, d) := by
      intro e he a1 a2 a3
      have h1 := (splitFirst_some ',' (h ++ ',' :: (u ++ ',' :: (d ++ e))) h (u ++ ',' :: (d ++ e))).2 ⟨a1, rfl⟩
      have h2 := (splitFirst_some ',' (u ++ ',' :: (d ++ e)) u (d ++ e)).2 ⟨a2, rfl⟩
      have h3 := (tripleEnd_iff (d ++ e) d).2 ⟨a3, by rcases he with rfl | rfl <;> simp⟩
      simp only [tripleFields, h1, h2, h3]
    rintro (⟨rfl, a1, a2, a3⟩ | ⟨t, ⟨rfl, a1, a2, a3⟩, rfl⟩)
    · simpa using key _ (.inl rfl) a1 a2 a3
    · simpa using key _ (.inr rfl) a1 a2 a3

theorem isTriple_iff (s : Str) : isTriple s = true ↔ ∃ h u d, TripleLine s h u d := by
  unfold isTriple
  rw [Option.isSome_iff_exists]
  constructor
  · rintro ⟨⟨h, u, d⟩, e⟩; exact ⟨h, u, d, (fields_iff s h u d).1 e⟩
  · rintro ⟨h, u, d, e⟩; exact ⟨_, (fields_iff s h u d).2 e⟩

theorem line_head (s h u d : Str) (e : TripleLine s h u d) : ∃ t, s = '(' :: t := by
  rcases e with ⟨rfl, _⟩ | ⟨t, ⟨rfl, _⟩, rfl⟩ <;> exact ⟨_, rfl⟩

/-- the loop body of either function -/
def memberFn : Field → Option Str → Member → Except Err (Str × Str)
  | .user => userMember
  | .host => hostMember

theorem member_ok (fld : Field) (dom : Option Str) (m : Member) (a v : Str) :
    memberFn fld dom m = .ok (a, v) ↔ Entry fld (orEmpty dom) m a v := by
  constructor
  · intro h
    cases m with
    | text s =>
      cases s with
      | nil => cases fld <;> cases h
      | cons c s =>
        by_cases hc : c = '+'
        · subst hc
          have : (memberAttr, s) = (a, v) := by
            cases fld <;> simpa [memberFn, userMember, hostMember] using h
          cases this; exact .group
        · by_cases ht : isTriple (c :: s) = true
          · have : (tripleAttr, c :: s) = (a, v) := by
              cases fld <;> simpa [memberFn, userMember, hostMember, hc, ht] using h
            cases this
            obtain ⟨x, y, z, q⟩ := (isTriple_iff _).1 ht
            exact .full q
          · have hn : ¬ ∃ h u d, TripleLine (c :: s) h u d := fun q => ht ((isTriple_iff _).2 q)
            cases fld
            · have : (tripleAttr, mkTriple (some (c :: s)) none dom) = (a, v) := by
                simpa [memberFn, hostMember, hc, ht] using h
              cases this
              have e : mkTriple (some (c :: s)) none dom = str "(" ++ (c :: s) ++ str ",," ++ orEmpty dom ++ str ")" := by
                simp [mkTriple, orEmpty]
              rw [e]; exact .host (by simp) (by simp [hc]) hn
            · have : (tripleAttr, mkTriple none (some (c :: s)) dom) = (a, v) := by
                simpa [memberFn, userMember, hc, ht] using h
              cases this
              have e : mkTriple none (some (c :: s)) dom = str "(," ++ (c :: s) ++ str "," ++ orEmpty dom ++ str ")" := by
                simp [mkTriple, orEmpty]
              rw [e]; exact .user (by simp) (by simp [hc]) hn
    | tuple l =>
      match l, fld, h with
      | [x], .host, h =>
        cases h
        have e : mkTriple x none dom = str "(" ++ orEmpty x ++ str ",," ++ orEmpty dom ++ str ")" := by simp [mkTriple, orEmpty]
        rw [e]; exact .hostTuple
      | [x, y], .host, h => cases h; exact .pair
      | [x, y], .user, h => cases h; exact .pair
      | [x, y, z], .host, h => cases h; exact .triple
      | [x, y, z], .user, h => cases h; exact .triple
    | other => cases fld <;> cases h
  · intro h
    have sm : ∀ s : Str, s ≠ [] → s.head? ≠ some '+' → ∃ c t, s = c :: t ∧ c ≠ '+' := by
      intro s h1 h2
      cases s with
      | nil => exact absurd rfl h1
      | cons c t => exact ⟨c, t, rfl, by simpa using h2⟩
    cases h with
    | group => cases fld <;> rfl
    | full q =>
      obtain ⟨t, rfl⟩ := line_head _ _ _ _ q
      have := (isTriple_iff _).2 ⟨_, _, _, q⟩
      cases fld <;> simp [memberFn, userMember, hostMember, this]
    | user h1 h2 h3 =>
      obtain ⟨c, t, rfl, hc⟩ := sm _ h1 h2
      have ht : isTriple (c :: t) = false := by
        rw [← Bool.not_eq_true]; exact fun q => h3 ((isTriple_iff _).1 q)
      simp [memberFn, userMember, hc, ht, mkTriple, orEmpty]
    | host h1 h2 h3 =>
      obtain ⟨c, t, rfl, hc⟩ := sm _ h1 h2
      have ht : isTriple (c :: t) = false := by
        rw [← Bool.not_eq_true]; exact fun q => h3 ((isTriple_iff _).1 q)
      simp [memberFn, hostMember, hc, ht, mkTriple, orEmpty]
    | hostTuple => simp [memberFn, hostMember, mkTriple, orEmpty]
    | pair => cases fld <;> simp [memberFn, hostMember, userMember, mkTriple, orEmpty]
    | triple => cases fld <;> simp [memberFn, hostMember, userMember, mkTriple, orEmpty]

theorem member_err (fld : Field) (dom : Option Str) (m : Member) (e : Err) : memberFn fld dom m = .error e ↔ BadEntry fld m e := by
  constructor
  · intro h
    cases m with
    | text s =>
      cases s with
      | nil => cases fld <;> cases h <;> exact .empty
      | cons c s =>
        exfalso
        cases fld <;> simp only [memberFn, userMember, hostMember] at h <;> repeat (split at h <;> try cases h)
    | tuple l =>
      match l, fld, h with
      | [], .host, h => cases h; exact .noField
      | [], .user, h => cases h; exact .noField
      | [x], .user, h => cases h; exact .noUser
      | a :: b :: c :: d :: l, .host, h => cases h; exact .tooMany
      | a :: b :: c :: d :: l, .user, h => cases h; exact .tooMany
    | other => cases fld <;> cases h <;> exact .other
  · rintro (_ | _ | _ | _ | _) <;> first | rfl | (cases fld <;> rfl)

theorem valuesOf_append (a : Str) (l k : List (Str × Str)) : valuesOf a (l ++ k) = valuesOf a l ++ valuesOf a k := by
  simp [valuesOf]

/-- a dictionary that holds exactly these attribute-value pairs, in order, and no attribute without values -/
def Holds (attrs : PDict Str (List Str)) (l : List (Str × Str)) : Prop :=
  ∀ a, attrs.get? a = if valuesOf a l = [] then none else some (valuesOf a l)

theorem holds_add (attrs : PDict Str (List Str)) (l : List (Str × Str)) (a v : Str) (h : Holds attrs l) :
    Holds (addValue attrs a v) (l ++ [(a, v)]) := by
  intro b
  have hva : valuesOf b (l ++ [(a, v)]) = valuesOf b l ++ (if a = b then [v] else []) := by
    rw [valuesOf_append]; congr 1
    by_cases e : a = b <;> simp [valuesOf, e]
  rw [hva]
  have ha := h a
  unfold addValue
  by_cases e : a = b
  · subst e
    simp only [if_true]
    split at ha
    · rename_i hv; rw [ha, hv]; simp [PDict.get?_set]
    · rw [ha]; simp [PDict.get?_set]
  · have hb := h b
    simp only [if_neg e, List.append_nil]
    split <;> rw [PDict.get?_set, if_neg (fun q => e q.symm), hb]

theorem loop_ok (fld : Field) (dom : Option Str) (ms : List Member) : ∀ (attrs : PDict Str (List Str)) (l0 : List (Str × Str)), Holds attrs l0 →
    (∀ res, membersLoop (memberFn fld dom) attrs ms = .ok res → ∃ l, Entries fld (orEmpty dom) ms l ∧ Holds res (l0 ++ l)) ∧
    (∀ l, Entries fld (orEmpty dom) ms l → ∃ res, membersLoop (memberFn fld dom) attrs ms = .ok res ∧ Holds res (l0 ++ l)) ∧
    (∀ e, membersLoop (memberFn fld dom) attrs ms = .error e ↔
      ∃ pre m post l, ms = pre ++ m :: post ∧ Entries fld (orEmpty dom) pre l ∧ BadEntry fld m e) := by
  induction ms with
  | nil =>
    intro attrs l0 h
    refine ⟨?_, ?_, ?_⟩
    · intro res e; cases e; exact ⟨[], .nil, by simpa using h⟩
    · intro l hl; cases hl; exact ⟨attrs, rfl, by simpa using h⟩
    · intro e
      constructor
      · intro h; cases h
      · rintro ⟨pre, m, post, l, h, _⟩; simp at h
  | cons m ms ih =>
    intro attrs l0 h
    cases hm : memberFn fld dom m with
    | error e =>
      have hb := (member_err fld dom m e).1 hm
      have hno : ∀ a v, ¬ Entry fld (orEmpty dom) m a v := fun a v q => by
        rw [(member_ok fld dom m a v).2 q] at hm; cases hm
      refine ⟨?_, ?_, ?_⟩
      · intro res e; simp [membersLoop, hm] at e
      · intro l hl
        cases hl with
        | cons q _ => exact absurd q (hno _ _)
      · intro e'
        simp only [membersLoop, hm]
        constructor
        · intro q; cases q; exact ⟨[], m, ms, [], rfl, .nil, hb⟩
        · rintro ⟨pre, m', post, l, he, hpre, hbad⟩
          cases pre with
          | nil =>
            cases he
            rw [(member_err fld dom _ e').2 hbad] at hm
            cases hm; rfl
          | cons p pre =>
            cases he
            cases hpre with
            | cons q _ => exact absurd q (hno _ _)
    | ok q =>
      obtain ⟨a, v⟩ := q
      have he := (member_ok fld dom m a v).1 hm
      have huniq : ∀ a' v', Entry fld (orEmpty dom) m a' v' → a' = a ∧ v' = v := fun a' v' q => by
        rw [(member_ok fld dom m a' v').2 q] at hm; cases hm; exact ⟨rfl, rfl⟩
      obtain ⟨i1, i2, i3⟩ := ih _ _ (holds_add attrs l0 a v h)
      have hl : membersLoop (memberFn fld dom) attrs (m :: ms) = membersLoop (memberFn fld dom) (addValue attrs a v) ms := by
        simp [membersLoop, hm]
      rw [hl]
      refine ⟨?_, ?_, ?_⟩
      · intro res e
        obtain ⟨l, h1, h2⟩ := i1 res e
        exact ⟨(a, v) :: l, .cons he h1, by simpa using h2⟩
      · intro l hl'
        cases hl' with
        | cons q hl' =>
          obtain ⟨rfl, rfl⟩ := huniq _ _ q
          obtain ⟨res, h1, h2⟩ := i2 _ hl'
          exact ⟨res, h1, by simpa using h2⟩
      · intro e
        rw [i3 e]
        constructor
        · rintro ⟨pre, m', post, l, rfl, h1, h2⟩
          exact ⟨m :: pre, m', post, _, rfl, .cons he h1, h2⟩
        · rintro ⟨pre, m', post, l, he', h1, h2⟩
          cases pre with
          | nil =>
            cases he'
            rw [(member_err fld dom _ e).2 h2] at hm; cases hm
          | cons p pre =>
            cases he'
            cases h1 with
            | cons q h1 => exact ⟨pre, m', post, _, rfl, h1, h2⟩

/-- the function called for users or hosts -/
def attrsFn : Field → Members → Option Str → Except Err (PDict Str (List Str))
  | .user => userAttrs
  | .host => hostAttrs

theorem attrsFn_eq (fld : Field) (ms : Members) (dom : Option Str) : attrsFn fld ms dom = membersLoop (memberFn fld dom) [] ms.toList := by
  cases fld <;> rfl

theorem holds_nil : Holds [] [] := fun a => by simp [valuesOf]

end NgP
open NgP

/-! ### C50 -/

/-- **C50.** The fields read from a text are those of the triple it is; nothing else is taken for a triple (but for a final newline). -/
theorem c50_fields (s h u d : Str) : tripleFields s = some (h, u, d) ↔ TripleLine s h u d := fields_iff s h u d

/-- **C50.** The triple built for a host and a user without commas and a domain without `)` is recognised and gives the same fields back. -/
theorem c50_round_trip (h u d : Str) (hh : ',' ∉ h) (hu : ',' ∉ u) (hd : ')' ∉ d) :
    isTriple (mkTriple (some h) (some u) (some d)) = true ∧ tripleFields (mkTriple (some h) (some u) (some d)) = some (h, u, d) := by
  have : TripleLine (mkTriple (some h) (some u) (some d)) h u d := .inl ⟨rfl, hh, hu, hd⟩
  exact ⟨(isTriple_iff _).2 ⟨h, u, d, this⟩, (fields_iff _ _ _ _).2 this⟩

/-- … and the conditions are needed: otherwise the fields are not those given. -/
theorem c50_round_trip_exact (h u d : Str) :
    tripleFields (mkTriple (some h) (some u) (some d)) = some (h, u, d) ↔ ',' ∉ h ∧ ',' ∉ u ∧ ')' ∉ d := by
  constructor
  · intro e
    rcases (fields_iff _ _ _ _).1 e with ⟨_, a, b, c⟩ | ⟨t, ⟨_, a, b, c⟩, _⟩ <;> exact ⟨a, b, c⟩
  · rintro ⟨a, b, c⟩; exact (c50_round_trip h u d a b c).2

/-- **C50.** Adding, replacing or deleting members sends, when every entry stands for something, exactly the values the entries stand for, each
under its attribute, in order and none lost. -/
theorem c50_members (fld : Field) (ms : Members) (dom : Option Str) (l : List (Str × Str)) (hl : Entries fld (orEmpty dom) ms.toList l) :
    ∃ attrs, attrsFn fld ms dom = .ok attrs ∧ ∀ a, attrs.get? a = if valuesOf a l = [] then none else some (valuesOf a l) := by
  rw [attrsFn_eq]
  obtain ⟨res, h1, h2⟩ := (loop_ok fld dom ms.toList [] [] holds_nil).2.1 l hl
  exact ⟨res, h1, fun a => by simpa using h2 a⟩

/-- … and nothing is sent otherwise. -/
theorem c50_members_only (fld : Field) (ms : Members) (dom : Option Str) (attrs : PDict Str (List Str)) (h : attrsFn fld ms dom = .ok attrs) :
    ∃ l, Entries fld (orEmpty dom) ms.toList l ∧ ∀ a, attrs.get? a = if valuesOf a l = [] then none else some (valuesOf a l) := by
  rw [attrsFn_eq] at h
  obtain ⟨l, h1, h2⟩ := (loop_ok fld dom ms.toList [] [] holds_nil).1 attrs h
  exact ⟨l, h1, fun a => by simpa using h2 a⟩

/-- **C50.** The exception raised is that of the first bad entry. -/
theorem c50_refused (fld : Field) (ms : Members) (dom : Option Str) (e : Err) :
    attrsFn fld ms dom = .error e ↔
      ∃ pre m post l, ms.toList = pre ++ m :: post ∧ Entries fld (orEmpty dom) pre l ∧ BadEntry fld m e := by
  rw [attrsFn_eq]
  exact (loop_ok fld dom ms.toList [] [] holds_nil).2.2 e

/-- the triple of a plain name -/
def plainTriple (fld : Field) (dom n : Str) : Str :=
  match fld with
  | .user => str "(," ++ n ++ str "," ++ dom ++ str ")"
  | .host => str "(" ++ n ++ str ",," ++ dom ++ str ")"

theorem names_entries (fld : Field) (dom : Str) (names : List Str) (h : ∀ n ∈ names, n ≠ [] ∧ n.head? ≠ some '+' ∧ n.head? ≠ some '(') :
    Entries fld dom (names.map .text) (names.map fun n => (tripleAttr, plainTriple fld dom n)) := by
  induction names with
  | nil => exact .nil
  | cons n names ih =>
    obtain ⟨h1, h2, h3⟩ := h n (by simp)
    have hn : ¬ ∃ h u d, TripleLine n h u d := by
      rintro ⟨x, y, z, q⟩
      obtain ⟨t, rfl⟩ := line_head _ _ _ _ q
      exact h3 rfl
    have := ih (fun m hm => h m (by simp [hm]))
    cases fld
    · exact .cons (.host h1 h2 hn) this
    · exact .cons (.user h1 h2 hn) this

theorem plain_fields (fld : Field) (dom n : Str) (hd : ')' ∉ dom) (hn : ',' ∉ n) : ∃ q, tripleFields (plainTriple fld dom n) = some q ∧ fld.of q = n := by
  cases fld
  · exact ⟨_, (fields_iff (str "(" ++ n ++ str ",," ++ dom ++ str ")") n [] dom).2 (.inl ⟨by simp, hn, by simp, hd⟩), rfl⟩
  · exact ⟨_, (fields_iff (str "(," ++ n ++ str "," ++ dom ++ str ")") [] n dom).2 (.inl ⟨by simp, by simp, hn, hd⟩), rfl⟩

/-- **C50.** Names added to an object as users (hosts) are, read back from the resulting attribute, the users (hosts) of the group. -/
theorem c50_read_back (fld : Field) (names : List Str) (dom : Str) (hd : ')' ∉ dom) (hne : names ≠ [])
    (h : ∀ n ∈ names, n ≠ [] ∧ n.head? ≠ some '+' ∧ n.head? ≠ some '(' ∧ ',' ∉ n) :
    ∃ attrs vals, attrsFn fld (.list (names.map .text)) (some dom) = .ok attrs ∧ attrs.get? tripleAttr = some vals ∧
      attrs.get? memberAttr = none ∧ extractLoop fld vals = .ok names := by
  have he := names_entries fld dom names (fun n hn => ⟨(h n hn).1, (h n hn).2.1, (h n hn).2.2.1⟩)
  obtain ⟨attrs, h1, h2⟩ := c50_members fld (.list (names.map .text)) (some dom) _ he
  refine ⟨attrs, names.map (plainTriple fld dom), h1, ?_, ?_, ?_⟩
  · rw [h2]
    have : valuesOf tripleAttr (names.map fun n => (tripleAttr, plainTriple fld dom n)) = names.map (plainTriple fld dom) := by
      simp only [valuesOf, List.filter_map, List.map_map]
      rw [List.filter_eq_self.2 (by simp)]; rfl
    rw [this, if_neg (by simpa using hne)]
  · rw [h2]; simp [valuesOf, List.filter_map, Function.comp_def]
  · clear h1 h2 he hne attrs
    induction names with
    | nil => rfl
    | cons n names ih =>
      obtain ⟨q, hq, e⟩ := plain_fields fld dom n hd (h n (by simp)).2.2.2
      have := ih (fun m hm => h m (by simp [hm]))
      simp only [List.map_cons, extractLoop, hq, this, e]

/-- the documented examples (netgroups.py:38-67) -/
example : userAttrs (.list [.text (str "alice"), .text (str "bob"), .tuple [some (str "dir"), some (str "admin")], .text (str "(dir,manager,secrets)")]) (some (str "ex")) =
    .ok [(tripleAttr, [str "(,alice,ex)", str "(,bob,ex)", str "(dir,admin,ex)", str "(dir,manager,secrets)"])] := by decide +kernel
example : hostAttrs (.list [.text (str "d1"), .text (str "(d3,,)"), .tuple [some (str "d4")], .text (str "+aws")]) (some []) =
    .ok [(tripleAttr, [str "(d1,,)", str "(d3,,)", str "(d4,,)"]), (memberAttr, [str "aws"])] := by decide +kernel
example : userAttrs (.one (.tuple [some (str "h")])) none = .error .valueError := by decide
/-- the hypotheses of `c50_read_back` are met -/
example : ∀ n ∈ [str "alice", str "bob"], n ≠ [] ∧ n.head? ≠ some '+' ∧ n.head? ≠ some '(' ∧ ',' ∉ n := by decide

/-- **C50, finding.** A user name with a comma is stored as a triple of another user and another domain. -/
theorem c50_comma : userAttrs (.one (.text (str "a,b"))) (some (str "ex")) = .ok [(tripleAttr, [str "(,a,b,ex)"])] ∧
    tripleFields (str "(,a,b,ex)") = some ([], str "a", str "b,ex") := by
  refine ⟨?_, ?_⟩ <;> decide +kernel

/-- **C50, finding.** A text that is a triple but for a final newline is taken for a triple. -/
theorem c50_newline : isTriple (str "(h,u,d)\n") = true ∧ ¬ ∃ h u d, Triple (str "(h,u,d)\n") h u d := by
  refine ⟨by decide, ?_⟩
  rintro ⟨h, u, d, e, _⟩
  have := congrArg List.getLast? e
  rw [List.getLast?_append] at this
  simp at this

/-! ### C51 -/

namespace NgP

variable {lower : Str → Str} {find : Str → Except Err Ng} {fld : Field}

theorem getD_eq (ng : Ng) (a : Str) : (CIDict.get lower ng a).getD [] = AttrsDict.getAttr lower ng a := by
  unfold AttrsDict.getAttr; cases CIDict.get lower ng a <;> rfl

theorem extract_err (ts : List Str) (l : List Str) : extractLoop fld ts = .ok l ↔ FieldsOf fld ts l := by
  induction ts generalizing l with
  | nil =>
    constructor
    · intro h; cases h; exact .nil
    · intro h; cases h; rfl
  | cons t ts ih =>
    constructor
    · intro h
      unfold extractLoop at h
      split at h
      · cases h
      · rename_i q hq
        split at h
        · cases h
        · rename_i l' hl
          cases h
          obtain ⟨x, y, z⟩ := q
          have := (fields_iff _ _ _ _).1 hq
          cases fld
          · exact .cons this ((ih _).1 hl)
          · exact .cons this ((ih _).1 hl)
    · intro h
      cases h with
      | cons ht hl =>
        have h1 := (fields_iff _ _ _ _).2 ht
        have h2 := (ih _).2 hl
        simp only [extractLoop, h1, h2]
        cases fld <;> rfl

theorem fieldsOf_mem {ts l : List Str} (h : FieldsOf fld ts l) (x : Str) :
    x ∈ l ↔ ∃ t h u d, t ∈ ts ∧ TripleLine t h u d ∧ fieldOf fld h u = x := by
  induction h with
  | nil => simp
  | @cons t h u d ts l ht _ ih =>
    rw [List.mem_cons, ih]
    constructor
    · rintro (rfl | ⟨t', h', u', d', a, b, c⟩)
      · exact ⟨t, h, u, d, by simp, ht, rfl⟩
      · exact ⟨t', h', u', d', by simp [a], b, c⟩
    · rintro ⟨t', h', u', d', a, b, c⟩
      rcases List.mem_cons.1 a with rfl | a
      · have h1 := (fields_iff _ _ _ _).2 ht
        rw [(fields_iff _ _ _ _).2 b] at h1
        cases h1; exact .inl c.symm
      · exact .inr ⟨t', h', u', d', a, b, c⟩

theorem fieldsOf_valid {ts l : List Str} (h : FieldsOf fld ts l) : ∀ t ∈ ts, ∃ h u d, TripleLine t h u d := by
  induction h with
  | nil => simp
  | cons ht _ ih =>
    intro t h
    rcases List.mem_cons.1 h with rfl | h
    · exact ⟨_, _, _, ht⟩
    · exact ih t h

theorem fieldsOf_exists (ts : List Str) (h : ∀ t ∈ ts, ∃ h u d, TripleLine t h u d) : ∃ l, FieldsOf fld ts l := by
  induction ts with
  | nil => exact ⟨[], .nil⟩
  | cons t ts ih =>
    obtain ⟨x, y, z, ht⟩ := h t (by simp)
    obtain ⟨l, hl⟩ := ih (fun t h' => h t (by simp [h']))
    exact ⟨_, .cons ht hl⟩

theorem go_ok (expand : Str → Except Err (List Str)) (ms names l : List Str) :
    getObj.go expand names ms = .ok l → (∀ m ∈ ms, ∃ k, expand m = .ok k) ∧
      ∀ x, x ∈ l ↔ x ∈ names ∨ ∃ m ∈ ms, ∃ k, expand m = .ok k ∧ x ∈ k := by
  induction ms generalizing names with
  | nil => intro h; cases h; simp
  | cons m ms ih =>
    intro h
    unfold getObj.go at h
    split at h
    · cases h
    · rename_i k hk
      obtain ⟨h1, h2⟩ := ih _ h
      refine ⟨?_, ?_⟩
      · intro m' hm
        rcases List.mem_cons.1 hm with rfl | hm
        · exact ⟨k, hk⟩
        · exact h1 m' hm
      · intro x
        rw [h2]
        constructor
        · rintro (h | ⟨m', a, k', b, c⟩)
          · rcases List.mem_append.1 h with h | h
            · exact .inl h
            · exact .inr ⟨m, by simp, k, hk, h⟩
          · exact .inr ⟨m', by simp [a], k', b, c⟩
        · rintro (h | ⟨m', a, k', b, c⟩)
          · exact .inl (by simp [h])
          · rcases List.mem_cons.1 a with rfl | a
            · rw [hk] at b; cases b; exact .inl (by simp [c])
            · exact .inr ⟨m', a, k', b, c⟩

theorem go_total (expand : Str → Except Err (List Str)) (ms names : List Str) (h : ∀ m ∈ ms, ∃ k, expand m = .ok k) :
    ∃ l, getObj.go expand names ms = .ok l := by
  induction ms generalizing names with
  | nil => exact ⟨_, rfl⟩
  | cons m ms ih =>
    obtain ⟨k, hk⟩ := h m (by simp)
    obtain ⟨l, hl⟩ := ih (names ++ k) (fun m h' => h m (by simp [h']))
    exact ⟨l, by simp only [getObj.go, hk, hl]⟩

theorem getObj_true (n : Nat) (ng : Ng) : getObj lower find fld (n + 1) ng true =
    match extractLoop fld (AttrsDict.getAttr lower ng tripleAttr) with
    | .error e => .error e
    | .ok names => getObj.go (fun g => getNames lower find fld n g true) names (AttrsDict.getAttr lower ng memberAttr) := by
  unfold getObj
  have e : extractField lower fld ng = extractLoop fld (AttrsDict.getAttr lower ng tripleAttr) := by unfold extractField; rw [getD_eq]
  rw [e]
  cases extractLoop fld (AttrsDict.getAttr lower ng tripleAttr) with
  | error e => rfl
  | ok names =>
    simp only [Bool.true_and]
    unfold AttrsDict.has AttrsDict.getAttr CIDict.get
    cases h : CIDict.getItem lower ng memberAttr with
    | error e => simp [getObj.go]
    | ok members =>
      cases members with
      | nil => simp [getObj.go]
      | cons m ms => simp; rfl

theorem getNames_true (n : Nat) (cn : Str) (l : List Str) :
    getNames lower find fld (n + 1) cn true = .ok l ↔ ∃ ts ms names, dirOf lower find cn = some (ts, ms) ∧ FieldsOf fld ts names ∧
      getObj.go (fun g => getNames lower find fld n g true) names ms = .ok l := by
  rw [getNames.eq_def, dirOf]
  cases hf : find cn with
  | error e => simp
  | ok ng =>
    simp only [getObj_true]
    constructor
    · intro h
      split at h
      · cases h
      · rename_i names hn
        exact ⟨_, _, names, rfl, (extract_err _ _).1 hn, h⟩
    · rintro ⟨ts, ms, names, h1, h2, h3⟩
      cases h1
      rw [(extract_err _ _).2 h2]
      exact h3

theorem getNames_zero (cn : Str) (b : Bool) (l : List Str) : getNames lower find fld 0 cn b ≠ .ok l := by
  unfold getNames
  split
  · nofun
  · unfold getObj; nofun

/-- what a successful expansion says -/
theorem expand_spec (n : Nat) : ∀ (cn : Str) (l : List Str), getNames lower find fld n cn true = .ok l →
    (∀ x, x ∈ l ↔ ∃ g, Reach (dirOf lower find) cn g ∧ NamedBy (dirOf lower find) fld g x) ∧
    (∀ g, Reach (dirOf lower find) cn g → Sound (dirOf lower find) g) ∧
    Acc (fun m g => Member1 (dirOf lower find) g m) cn := by
  induction n with
  | zero => intro cn l h; exact absurd h (getNames_zero _ _ _)
  | succ n ih =>
    intro cn l h
    obtain ⟨ts, ms, names, h1, h2, h3⟩ := (getNames_true n cn l).1 h
    obtain ⟨h4, h5⟩ := go_ok _ _ _ _ h3
    have hm : ∀ m, Member1 (dirOf lower find) cn m → m ∈ ms := by
      rintro m ⟨ts', ms', a, b⟩
      rw [h1] at a; cases a; exact b
    refine ⟨?_, ?_, ?_⟩
    · intro x
      rw [h5, fieldsOf_mem h2]
      constructor
      · rintro (⟨t, hh, u, d, a, b, c⟩ | ⟨m, a, k, b, c⟩)
        · exact ⟨cn, .refl, ts, ms, t, hh, u, d, h1, a, b, c⟩
        · obtain ⟨g, hg, hx⟩ := ((ih m k b).1 x).1 c
          exact ⟨g, .step h1 a hg, hx⟩
      · rintro ⟨g, hg, hx⟩
        cases hg with
        | refl =>
          obtain ⟨ts', ms', t, hh, u, d, a, b, c, e⟩ := hx
          rw [h1] at a; cases a
          exact .inl ⟨t, hh, u, d, b, c, e⟩
        | @step _ ts' ms' m _ a b hg =>
          rw [h1] at a; cases a
          obtain ⟨k, hk⟩ := h4 m b
          exact .inr ⟨m, b, k, hk, ((ih m k hk).1 x).2 ⟨g, hg, hx⟩⟩
    · intro g hg
      cases hg with
      | refl => exact ⟨ts, ms, h1, fieldsOf_valid h2⟩
      | @step _ ts' ms' m _ a b hg =>
        rw [h1] at a; cases a
        obtain ⟨k, hk⟩ := h4 m b
        exact (ih m k hk).2.1 g hg
    · refine ⟨_, fun m h => ?_⟩
      obtain ⟨k, hk⟩ := h4 m (hm m h)
      exact (ih m k hk).2.2

theorem bound_list (ms : List Str) (P : Nat → Str → Prop) (hmono : ∀ n m x, n ≤ m → P n x → P m x) (h : ∀ m ∈ ms, ∃ n, P n m) :
    ∃ n, ∀ m ∈ ms, P n m := by
  induction ms with
  | nil => exact ⟨0, by simp⟩
  | cons m ms ih =>
    obtain ⟨a, ha⟩ := h m (by simp)
    obtain ⟨b, hb⟩ := ih (fun m h' => h m (by simp [h']))
    refine ⟨max a b, fun k hk => ?_⟩
    rcases List.mem_cons.1 hk with rfl | hk
    · exact hmono _ _ _ (Nat.le_max_left a b) ha
    · exact hmono _ _ _ (Nat.le_max_right a b) (hb k hk)

theorem expand_total (cn : Str) (hacc : Acc (fun m g => Member1 (dirOf lower find) g m) cn) :
    (∀ g, Reach (dirOf lower find) cn g → Sound (dirOf lower find) g) →
    ∃ N, ∀ n, N ≤ n → ∃ l, getNames lower find fld n cn true = .ok l := by
  induction hacc with
  | intro cn _ ih =>
    intro hs
    obtain ⟨ts, ms, h1, h2⟩ := hs cn .refl
    obtain ⟨N, hN⟩ := bound_list ms (fun N m => ∀ n, N ≤ n → ∃ l, getNames lower find fld n m true = .ok l)
      (fun a b x hab h n hn => h n (by omega))
      (fun m hm => ih m ⟨ts, ms, h1, hm⟩ (fun g hg => hs g (.step h1 hm hg)))
    refine ⟨N + 1, fun n hn => ?_⟩
    obtain ⟨k, rfl⟩ : ∃ k, n = k + 1 := ⟨n - 1, by omega⟩
    obtain ⟨names, hnames⟩ := fieldsOf_exists (fld := fld) ts h2
    obtain ⟨l, hl⟩ := go_total (fun g => getNames lower find fld k g true) ms names (fun m hm => hN m hm k (by omega))
    exact ⟨l, (getNames_true k cn l).2 ⟨ts, ms, names, h1, hnames, hl⟩⟩

theorem reach_trans {dir : NgDir} {a b c : Str} (h : Reach dir a b) (h' : Reach dir b c) : Reach dir a c := by
  induction h with
  | refl => exact h'
  | step a b _ ih => exact .step a b (ih h')

theorem acc_reach {dir : NgDir} {a b : Str} (h : Reach dir a b) (hacc : Acc (fun m g => Member1 dir g m) a) :
    Acc (fun m g => Member1 dir g m) b := by
  induction h with
  | refl => exact hacc
  | step x y _ ih => exact ih (hacc.inv ⟨_, _, x, y⟩)

theorem acc_irrefl {dir : NgDir} {a : Str} (hacc : Acc (fun m g => Member1 dir g m) a) : ¬ Reach1 dir a a := by
  induction hacc with
  | intro a _ ih =>
    rintro ⟨m, hm, hr⟩
    refine ih m hm ?_
    cases hr with
    | refl => exact ⟨_, hm, .refl⟩
    | @step _ ts ms k _ x y hr =>
      exact ⟨k, ⟨ts, ms, x, y⟩, reach_trans hr (by obtain ⟨ts', ms', p, q⟩ := hm; exact .step p q .refl)⟩

/-- in a directory with finitely many groups, no cycle below `g` means that going down from `g` ends -/
theorem acc_finite {dir : NgDir} (groups : List Str) (hfin : ∀ g, dir g ≠ none → g ∈ groups) (cn : Str)
    (hcyc : ∀ g, Reach dir cn g → ¬ Reach1 dir g g) : Acc (fun m g => Member1 dir g m) cn := by
  suffices H : ∀ (n : Nat) (left : List Str) (g : Str), left.length ≤ n → Reach dir cn g →
      (∀ k ∈ groups, k ∉ left → Reach1 dir k g) → Acc (fun m g => Member1 dir g m) g from
    H groups.length groups cn (Nat.le_refl _) .refl (fun k h h' => absurd h h')
  intro n
  induction n with
  | zero =>
    intro left g hl hr hk
    have : left = [] := by cases left <;> simp_all
    subst this
    refine ⟨_, ?_⟩
    rintro m ⟨ts, ms, h, _⟩
    exact absurd (hk g (hfin g (by rw [h]; simp)) (by simp)) (hcyc g hr)
  | succ n ih =>
    intro left g hl hr hk
    refine ⟨_, ?_⟩
    rintro m ⟨ts, ms, h, hm⟩
    have hg : g ∈ groups := hfin g (by rw [h]; simp)
    have hgl : g ∈ left := Classical.byContradiction fun q => hcyc g hr (hk g hg q)
    refine ih (left.filter (· != g)) m ?_ (reach_trans hr (.step h hm .refl)) ?_
    · have : (left.filter (· != g)).length < left.length := by
        rw [List.length_filter_lt_length_iff_exists]
        exact ⟨g, hgl, by simp⟩
      omega
    · intro k hkg hkl
      by_cases e : k = g
      · subst e; exact ⟨m, ⟨ts, ms, h, hm⟩, .refl⟩
      · have : k ∉ left := fun q => hkl (by simp [q, e])
        obtain ⟨j, h1, h2⟩ := hk k hkg this
        exact ⟨j, h1, reach_trans h2 (.step h hm .refl)⟩

end NgP
open NgP

/-- **C51.** What a recursive expansion returns: exactly the users (hosts) named by the group or by any group reached from it. -/
theorem c51_exact (lower : Str → Str) (find : Str → Except Err Ng) (fld : Field) (depth : Nat) (cn : Str) (l : List Str)
    (h : getNames lower find fld depth cn true = .ok l) (x : Str) :
    x ∈ l ↔ ∃ g, Reach (dirOf lower find) cn g ∧ NamedBy (dirOf lower find) fld g x :=
  (expand_spec depth cn l h).1 x

/-- **C51.** It never returns a partial answer: every group reached exists and holds only triples. -/
theorem c51_complete (lower : Str → Str) (find : Str → Except Err Ng) (fld : Field) (depth : Nat) (cn : Str) (l : List Str)
    (h : getNames lower find fld depth cn true = .ok l) (g : Str) (hg : Reach (dirOf lower find) cn g) : Sound (dirOf lower find) g :=
  (expand_spec depth cn l h).2.1 g hg

/-- **C51 (termination, partial: given recursion depth enough, and no group that contains itself).** In a directory with finitely many groups
where no group reached contains itself and all groups reached exist and hold only triples, the expansion succeeds from some recursion depth on. -/
theorem c51_terminates_partial (lower : Str → Str) (find : Str → Except Err Ng) (fld : Field) (cn : Str) (groups : List Str)
    (hfin : ∀ g, dirOf lower find g ≠ none → g ∈ groups)
    (hcyc : ∀ g, Reach (dirOf lower find) cn g → ¬ Reach1 (dirOf lower find) g g)
    (hs : ∀ g, Reach (dirOf lower find) cn g → Sound (dirOf lower find) g) :
    ∃ N, ∀ depth, N ≤ depth → ∃ l, getNames lower find fld depth cn true = .ok l :=
  expand_total cn (acc_finite groups hfin cn hcyc) hs

/-- **C51, finding.** A netgroup that reaches a netgroup containing itself cannot be expanded, whatever the recursion limit: an exception is raised
although membership is well defined. -/
theorem c51_cycle (lower : Str → Str) (find : Str → Except Err Ng) (fld : Field) (cn g : Str) (hr : Reach (dirOf lower find) cn g)
    (hc : Reach1 (dirOf lower find) g g) (depth : Nat) : ∃ e, getNames lower find fld depth cn true = .error e := by
  cases h : getNames lower find fld depth cn true with
  | error e => exact ⟨e, rfl⟩
  | ok l => exact absurd hc (acc_irrefl (acc_reach hr (expand_spec depth cn l h).2.2))

/-- **C51.** Without recursion: the fields of the group's own triples, in order, and no other group is looked up. -/
theorem c51_direct (lower : Str → Str) (find : Str → Except Err Ng) (fld : Field) (depth : Nat) (cn : Str) (l : List Str) :
    getNames lower find fld (depth + 1) cn false = .ok l ↔ ∃ ts ms, dirOf lower find cn = some (ts, ms) ∧ FieldsOf fld ts l := by
  unfold getNames dirOf
  cases find cn with
  | error e => simp
  | ok ng =>
    have e : getObj lower find fld (depth + 1) ng false = extractLoop fld (AttrsDict.getAttr lower ng tripleAttr) := by
      unfold getObj extractField
      rw [getD_eq]
      cases extractLoop fld (AttrsDict.getAttr lower ng tripleAttr) <;> simp
    simp only [e, extract_err]
    constructor
    · intro h; exact ⟨_, _, rfl, h⟩
    · rintro ⟨ts, ms, h1, h2⟩; cases h1; exact h2

/-- **C51.** Expanding an object already fetched is expanding the group it was fetched as. -/
theorem c51_object (lower : Str → Str) (find : Str → Except Err Ng) (fld : Field) (depth : Nat) (cn : Str) (ng : Ng) (b : Bool)
    (h : find cn = .ok ng) : getObj lower find fld depth ng b = getNames lower find fld depth cn b := by
  simp [getNames, h]

/-- **C51, finding.** Asked of the object itself (`obj.netgroups.get_users()`), users and hosts cannot be read at all. -/
theorem c51_object_method (b : Bool) : ∃ e, objGetNames b = .error e := by cases b <;> exact ⟨_, rfl⟩

/-- a directory to try: `a` names alice and contains `b` and `c`, both of which contain `d`, which names dave (and a host without user); `x`
contains itself -/
def sampleNg (ts ms : List Str) : Ng := ((CIDict.empty : Ng).setItem id tripleAttr ts).setItem id memberAttr ms
def sampleFind (g : Str) : Except Err Ng :=
  if g = str "a" then .ok (sampleNg [str "(,alice,)"] [str "b", str "c"])
  else if g = str "b" ∨ g = str "c" then .ok (sampleNg [] [str "d"])
  else if g = str "d" then .ok (sampleNg [str "(,dave,)", str "(host,,)"] [])
  else if g = str "x" then .ok (sampleNg [str "(,xavier,)"] [str "x"])
  else .error .noResults

example : getNames id sampleFind .user 9 (str "a") true = .ok [str "alice", str "dave", [], str "dave", []] := by decide +kernel
example : getNames id sampleFind .host 9 (str "d") false = .ok [[], str "host"] := by decide +kernel
example : getNames id sampleFind .user 100 (str "x") true = .error .recursion := by decide +kernel
/-- **C51, finding.** A group reached along two ways has its users listed twice, and a triple that names only a host puts the user `''` into the
list of users. -/
theorem c51_duplicates : getNames id sampleFind .user 9 (str "a") true = .ok [str "alice", str "dave", [], str "dave", []] := by decide +kernel

/-- one step in the sample directory -/
theorem sample_step (g m : Str) (h : Member1 (dirOf id sampleFind) g m) :
    (g = str "a" ∧ (m = str "b" ∨ m = str "c")) ∨ ((g = str "b" ∨ g = str "c") ∧ m = str "d") ∨ (g = str "x" ∧ m = str "x") := by
  obtain ⟨ts, ms, h1, h2⟩ := h
  by_cases ha : g = str "a"
  · subst ha; have : ms = [str "b", str "c"] := by cases h1; rfl
    subst this; simpa using h2
  by_cases hb : g = str "b"
  · subst hb; have : ms = [str "d"] := by cases h1; rfl
    subst this; simpa using h2
  by_cases hc : g = str "c"
  · subst hc; have : ms = [str "d"] := by cases h1; rfl
    subst this; simpa using h2
  by_cases hd : g = str "d"
  · subst hd; have : ms = [] := by cases h1; rfl
    subst this; cases h2
  by_cases hx : g = str "x"
  · subst hx; have : ms = [str "x"] := by cases h1; rfl
    subst this; simpa using h2
  · simp [dirOf, sampleFind, ha, hb, hc, hd, hx] at h1

theorem sample_reach {g k : Str} (h : Reach (dirOf id sampleFind) g k) (hg : g ∈ [str "a", str "b", str "c", str "d"]) :
    k ∈ [str "a", str "b", str "c", str "d"] ∧ (k.map Char.toNat).sum ≥ (g.map Char.toNat).sum := by
  induction h with
  | refl => exact ⟨hg, Nat.le_refl _⟩
  | @step g ts ms m k h1 h2 _ ih =>
    rcases sample_step g m ⟨ts, ms, h1, h2⟩ with ⟨rfl, rfl | rfl⟩ | ⟨rfl | rfl, rfl⟩ | ⟨rfl, rfl⟩
    all_goals first
      | (exfalso; revert hg; decide)
      | (have := ih (by decide); refine ⟨this.1, Nat.le_trans ?_ this.2⟩; decide)

/-- the hypotheses of `c51_terminates_partial` are met by the group `a` of the sample directory -/
example : ∃ N, ∀ depth, N ≤ depth → ∃ l, getNames id sampleFind .user depth (str "a") true = .ok l := by
  refine c51_terminates_partial id sampleFind .user (str "a") [str "a", str "b", str "c", str "d", str "x"] ?_ ?_ ?_
  · intro g hg
    apply Classical.byContradiction
    intro hn
    apply hg
    simp only [List.mem_cons, List.not_mem_nil, or_false, not_or] at hn
    simp [dirOf, sampleFind, hn]
  · rintro g hg ⟨m, hm, hr⟩
    have h1 := (sample_reach hg (by decide)).1
    rcases sample_step g m hm with ⟨rfl, rfl | rfl⟩ | ⟨rfl | rfl, rfl⟩ | ⟨rfl, rfl⟩
    all_goals first
      | (exfalso; revert h1; decide)
      | (have := (sample_reach hr (by decide)).2; revert this; decide)
  · intro g hg
    have h1 := (sample_reach hg (by decide)).1
    simp only [List.mem_cons, List.not_mem_nil, or_false] at h1
    rcases h1 with rfl | rfl | rfl | rfl <;> refine ⟨_, _, rfl, ?_⟩
    · intro t ht; exact (isTriple_iff t).1 (by revert t; decide)
    · intro t ht; exact (isTriple_iff t).1 (by revert t; decide)
    · intro t ht; exact (isTriple_iff t).1 (by revert t; decide)
    · intro t ht; exact (isTriple_iff t).1 (by revert t; decide)

/-- the hypotheses of `c51_cycle` are met by `x` -/
example (depth : Nat) : ∃ e, getNames id sampleFind .user depth (str "x") true = .error e :=
  c51_cycle id sampleFind .user (str "x") (str "x") .refl ⟨str "x", ⟨_, [str "x"], rfl, by simp⟩, .refl⟩ depth

/-! ### C67 -/

theorem ng_leaf : StdText (str "(objectClass=nisNetgroup)") (.equality (str "objectClass") (str "nisNetgroup")) :=
  (parseStandard_iff _ _).1 rfl

/-- **C67.** In standard syntax, whatever text is given, an accepted netgroup search only returns entries that are netgroups. -/
theorem c67_only_netgroups (f : Str) (g : Filter) (h : parseStandard (ngFilter f) = .ok g) :
    ∃ l, g = .and (.equality (str "objectClass") (str "nisNetgroup") :: l) := by
  have h' := (parseStandard_iff _ _).1 h
  unfold StdText ngFilter at h'
  generalize hs : str "(&(objectClass=nisNetgroup)" ++ f ++ str ")" = s at h'
  generalize hg : [g] = gs at h'
  cases h' with
  | @comparison t f' hav =>
    obtain ⟨c, t', rfl, hc⟩ := avaText_head _ _ hav
    have : c = '&' := by simp at hs; exact hs.1.symm
    exact absurd this (head_not_op c hc).1
  | @and t fs hne hm =>
    cases hg
    have ht : t = str "(objectClass=nisNetgroup)" ++ f := by
      have h1 : (str "(&" ++ (str "(objectClass=nisNetgroup)" ++ f)) ++ str ")" = (str "(&" ++ t) ++ str ")" := by simpa using hs
      exact (List.append_cancel_left (List.append_cancel_right h1)).symm
    subst ht
    generalize hx : str "(objectClass=nisNetgroup)" ++ f = x at hm
    cases hm with
    | nil => simp at hx
    | @cons a b k ks h1 h2 =>
      refine ⟨ks, ?_⟩
      obtain ⟨_, e1, _, p1⟩ := std_complete h1
      obtain ⟨_, e2, _, p2⟩ := std_complete ng_leaf
      cases e1; cases e2
      have q1 := p1 (a ++ b).length.succ b (by simp; omega)
      have q2 := p2 (a ++ b).length.succ f (by rw [← hx]; simp)
      rw [hx, q1] at q2
      cases q2; rfl
  | or => simp at hs
  | not => simp at hs

/-- … so an entry that does not match `(objectClass=nisNetgroup)` does not match the filter sent. -/
theorem c67_restricts (f : Str) (g : Filter) (h : parseStandard (ngFilter f) = .ok g) (val : Filter → Tri)
    (hm : evalFilter val g = some true) : val (.equality (str "objectClass") (str "nisNetgroup")) = some true := by
  obtain ⟨l, rfl⟩ := c67_only_netgroups f g h
  simp only [evalFilter, evalFilter.evalList, triAnd, List.foldr_cons] at hm
  revert hm
  generalize List.foldr kand (some true) (evalFilter.evalList val l) = t
  intro hm
  cases hv : val (.equality (str "objectClass") (str "nisNetgroup")) with
  | none => rw [hv] at hm; rcases t with _ | _ | _ <;> cases hm
  | some b => rw [hv] at hm; cases b <;> rcases t with _ | _ | _ <;> first | rfl | cases hm

/-- **C67.** A standard filter selects, in both syntaxes, exactly the netgroups that match it. -/
theorem c67_selects (s : Str) (f : Filter) (h : parseStandard s = .ok f) :
    parseStandard (ngFilter s) = .ok (.and [.equality (str "objectClass") (str "nisNetgroup"), f]) ∧
    parseUnified (ngFilter s) = .ok (.and [.equality (str "objectClass") (str "nisNetgroup"), f]) := by
  have h1 : parseStandard (ngFilter s) = .ok (.and [.equality (str "objectClass") (str "nisNetgroup"), f]) := by
    rw [parseStandard_iff]
    have hs := (parseStandard_iff _ _).1 h
    have := Std.and (t := str "(objectClass=nisNetgroup)" ++ (s ++ [])) (by simp) (Std.cons ng_leaf (Std.cons hs Std.nil))
    simpa [StdText, ngFilter] using this
  exact ⟨h1, c16_standard_in_unified _ _ h1⟩

/-- **C67, finding.** In the unified syntax (the default) a text with unbalanced parentheses escapes from the restriction: the search returns
entries that are not netgroups. -/
theorem c67_escape : ∃ g, parseUnified (ngFilter (str "(cn=a)) OR (cn=*")) = .ok g ∧
    ∀ val : Filter → Tri, val (.present (str "cn")) = some true → evalFilter val g = some true := by
  refine ⟨.or [.and [.equality (str "objectClass") (str "nisNetgroup"), .equality (str "cn") (str "a")], .present (str "cn")], rfl, ?_⟩
  intro val hv
  simp only [evalFilter, evalFilter.evalList, triOr, List.foldr_cons, List.foldr_nil, hv]
  generalize triAnd _ = t
  rcases t with _ | _ | _ <;> rfl

/-- **C67, finding.** An expression in laurelin's own filter language, accepted by every other search, is refused here. -/
theorem c67_expression_refused : (∃ g, parseUnified (str "(cn=a) OR (cn=b)") = .ok g) ∧
    parseUnified (ngFilter (str "(cn=a) OR (cn=b)")) = .error .ldapError := ⟨⟨_, rfl⟩, rfl⟩

end Laurelin.Props
