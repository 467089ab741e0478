import Verif.Model.Schema
import Verif.Lemmas.CaseIgnoreDict
/-!
# C33 inherited attribute lists, C34 inherited attribute type properties, C35 schema validation
-/
set_option linter.unusedSectionVars false
namespace Laurelin.Spec
open Schema

/-- `k` is class `i` itself or one of its direct or indirect superclasses. -/
inductive Anc (g : OCGraph) : Nat → Nat → Prop where
  | self (i : Nat) : Anc g i i
  | up (i j k : Nat) (s : Str) : s ∈ (g.cls i).supers → g.resolve s = .ok (some j) → Anc g j k → Anc g i k

/-- No class is its own ancestor: superclasses can be ranked below their subclasses. -/
def Ranked (g : OCGraph) (rank : Nat → Nat) : Prop :=
  ∀ i j s, s ∈ (g.cls i).supers → g.resolve s = .ok (some j) → rank j < rank i

/-- A line of attribute types, each one's supertype being the next. -/
def Line {F X : Type} (g : ATGraph F X) : List Nat → Prop
  | [] => True
  | [_] => True
  | t :: t' :: l => (∃ s, (g.spec t).supertype = some s ∧ g.resolve s = .ok (some t')) ∧ Line g (t' :: l)

/-- The attribute `values` of a type described by `a` are acceptable: one value if single-valued, not written if not user modifiable, and every value
within the length limit and of the right syntax. -/
structure GoodValues {V : Type} (a : AttrInfo V) (values : List V) (write : Bool) : Prop where
  obsolete : ∃ b, a.obsolete = .ok b
  single : a.singleValue = .ok false ∨ (a.singleValue = .ok true ∧ values.length ≤ 1)
  user : write = true → a.noUserMod = .ok false
  values : ∀ v ∈ values, a.syn v = .ok () ∧ ∃ n, a.syntaxLength = .ok n ∧ (n > -1 → (a.length v : Int) ≤ n)

/-- The English property C35. `extensible` says which classes allow any attribute. Attribute names are compared ignoring case (RFC 4512). -/
structure Conforms {V : Type} (lower : Str → Str) (s : SchemaEnv V) (extensible : Str → Prop) (obj : CIDict Str (List V)) (write : Bool) : Prop where
  ex : ∃ classes, obj.getItem lower (str "objectClass") = .ok classes ∧
    (∀ v ∈ classes, ∃ p, s.classOf (s.className v) = .ok p ∧ ∀ a ∈ p.1, ∃ k ∈ obj.items.map Prod.fst, lower k = lower a) ∧
    (∀ k ∈ obj.items.map Prod.fst, ∃ v ∈ classes, ∃ p, s.classOf (s.className v) = .ok p ∧
      (extensible (s.className v) ∨ ∃ a, (a ∈ p.1 ∨ a ∈ p.2) ∧ lower a = lower k))
  values : ∀ kv ∈ obj.items, ∃ a, s.attrOf kv.1 = .ok a ∧ GoodValues a kv.2 write

end Laurelin.Spec

namespace Laurelin.Props
open Laurelin Spec Schema

namespace SchemaP

/-- class `i` is in order: not evaluated and untouched, or evaluated with exactly the inherited attributes -/
def GoodAt (g : OCGraph) (st : OCState) (i : Nat) : Prop :=
  (st.seen i = false → st.mine i = (g.cls i).own) ∧
  (st.seen i = true → ∀ a, a ∈ st.mine i ↔ ∃ k, Anc g i k ∧ a ∈ (g.cls k).own)

theorem anc_iff (g : OCGraph) (i k : Nat) : Anc g i k ↔ k = i ∨ ∃ s j, s ∈ (g.cls i).supers ∧ g.resolve s = .ok (some j) ∧ Anc g j k := by
  constructor
  · rintro (_ | ⟨_, j, _, s, h1, h2, h3⟩)
    · exact .inl rfl
    · exact .inr ⟨s, j, h1, h2, h3⟩
  · rintro (rfl | ⟨s, j, h1, h2, h3⟩)
    · exact .self _
    · exact .up _ _ _ s h1 h2 h3

/-- what one evaluation guarantees, for classes of rank at most that of `i` -/
structure Post (g : OCGraph) (rank : Nat → Nat) (i : Nat) (st st' : OCState) (r : Except Err (List Str)) : Prop where
  good : ∀ j, rank j ≤ rank i → GoodAt g st' j
  rest : ∀ j, rank i < rank j → st'.seen j = st.seen j ∧ st'.mine j = st.mine j
  mono : ∀ j, st.seen j = true → st'.seen j = true
  val : ∃ l, r = .ok l ∧ ∀ a, a ∈ l ↔ ∃ k, Anc g i k ∧ a ∈ (g.cls k).own

theorem loop_post (g : OCGraph) (rank : Nat → Nat) (hrank : Ranked g rank)
    (fuel i : Nat)
    (ih : ∀ j st, rank j < rank i → (∀ x, rank x ≤ rank j → GoodAt g st x) → Post g rank j st (mustOf g fuel st j).1 (mustOf g fuel st j).2)
    (ss : List Str) (hss : ∀ s ∈ ss, s ∈ (g.cls i).supers) (hres : ∀ s ∈ ss, ∃ o, g.resolve s = .ok o) (st : OCState)
    (hgood : ∀ x, rank x < rank i → GoodAt g st x) (hseen : st.seen i = true) :
    let r := mustLoop g (mustOf g fuel) i st ss
    (∀ x, rank x < rank i → GoodAt g r.1 x) ∧ (∀ j, rank i ≤ rank j → j ≠ i → r.1.seen j = st.seen j ∧ r.1.mine j = st.mine j) ∧
    (∀ j, st.seen j = true → r.1.seen j = true) ∧
    r.2 = .ok (r.1.mine i) ∧
    ∀ a, a ∈ r.1.mine i ↔ a ∈ st.mine i ∨ ∃ s ∈ ss, ∃ j, g.resolve s = .ok (some j) ∧ ∃ k, Anc g j k ∧ a ∈ (g.cls k).own := by
  induction ss generalizing st with
  | nil => simpa [mustLoop] using hgood
  | cons s ss ihs =>
    obtain ⟨o, ho⟩ := hres s (by simp)
    have hss' : ∀ s ∈ ss, s ∈ (g.cls i).supers := fun s h => hss s (by simp [h])
    have hres' : ∀ s ∈ ss, ∃ o, g.resolve s = .ok o := fun s h => hres s (by simp [h])
    simp only [mustLoop, ho]
    cases o with
    | none =>
      obtain ⟨a, b, c, d, e⟩ := ihs hss' hres' st hgood hseen
      refine ⟨a, b, c, d, ?_⟩
      intro x
      rw [e x]
      simp [ho]
    | some j =>
      have hj : rank j < rank i := hrank i j s (hss s (by simp)) ho
      have hp := ih j st hj (fun x hx => hgood x (by omega))
      obtain ⟨l, hl, hlm⟩ := hp.val
      generalize hm : mustOf g fuel st j = m at hp hl
      obtain ⟨st1, res⟩ := m
      simp only at hp hl
      subst hl
      simp only [hm]
      generalize hst2 : (⟨st1.seen, setAt st1.mine i (st1.mine i ++ l)⟩ : OCState) = st2
      have hg2 : ∀ x, rank x < rank i → GoodAt g st2 x := by
        intro x hx
        have hxi : x ≠ i := by rintro rfl; omega
        have : GoodAt g st1 x := by
          by_cases hxj : rank x ≤ rank j
          · exact hp.good x hxj
          · have := hp.rest x (by omega)
            have hg := hgood x hx
            simp only [GoodAt, this.1, this.2]
            exact hg
        rw [← hst2]
        simpa [GoodAt, setAt, hxi] using this
      have hs2 : st2.seen i = true := by rw [← hst2]; exact hp.mono i hseen
      obtain ⟨a, b, c, d, e⟩ := ihs hss' hres' st2 hg2 hs2
      refine ⟨a, ?_, ?_, d, ?_⟩
      · intro x hx hxi
        have h1 := b x hx hxi
        have h2 := hp.rest x (by omega)
        rw [h1.1, h1.2, ← hst2]
        simp [setAt, hxi, h2]
      · intro x hx
        apply c
        rw [← hst2]; exact hp.mono x hx
      · intro x
        rw [e x]
        have hmi : st2.mine i = st.mine i ++ l := by
          rw [← hst2]
          simp [setAt, (hp.rest i hj).2]
        rw [hmi]
        simp only [List.mem_append, List.mem_cons, exists_eq_or_imp, ho, Except.ok.injEq, Option.some.injEq, hlm]
        constructor
        · rintro ((h | h) | h)
          · exact .inl h
          · exact .inr (.inl ⟨j, rfl, h⟩)
          · exact .inr (.inr h)
        · rintro (h | ⟨_, rfl, h⟩ | h)
          · exact .inl (.inl h)
          · exact .inl (.inr h)
          · exact .inr h

theorem must_post (g : OCGraph) (rank : Nat → Nat) (hrank : Ranked g rank) (hres : ∀ i, ∀ s ∈ (g.cls i).supers, ∃ o, g.resolve s = .ok o)
    (fuel i : Nat) (hf : rank i < fuel) (st : OCState) (hgood : ∀ x, rank x ≤ rank i → GoodAt g st x) :
    Post g rank i st (mustOf g fuel st i).1 (mustOf g fuel st i).2 := by
  induction fuel generalizing i st with
  | zero => omega
  | succ fuel ih =>
    rw [mustOf]
    by_cases hs : st.seen i = true
    · rw [if_pos hs]
      exact ⟨hgood, fun _ _ => ⟨rfl, rfl⟩, fun _ h => h, _, rfl, (hgood i (Nat.le_refl _)).2 hs⟩
    · rw [if_neg hs]
      have hs : st.seen i = false := by simpa using hs
      have hown := (hgood i (Nat.le_refl _)).1 hs
      have hg1 : ∀ x, rank x < rank i → GoodAt g ⟨setAt st.seen i true, st.mine⟩ x := by
        intro x hx
        have hxi : x ≠ i := by rintro rfl; omega
        simpa [GoodAt, setAt, hxi] using hgood x (by omega)
      have hl := loop_post g rank hrank fuel i (fun j st hj hg => ih j (by omega) st hg) (g.cls i).supers (fun _ h => h) (hres i)
        ⟨setAt st.seen i true, st.mine⟩ hg1 (by simp [setAt])
      simp only at hl
      generalize mustLoop g (mustOf g fuel) i ⟨setAt st.seen i true, st.mine⟩ (g.cls i).supers = r at hl
      obtain ⟨a, b, c, d, e⟩ := hl
      have hval : ∀ x, x ∈ r.1.mine i ↔ ∃ k, Anc g i k ∧ x ∈ (g.cls k).own := by
        intro x
        rw [e x, hown]
        constructor
        · rintro (h | ⟨s, hs, j, hj, k, hk, hx⟩)
          · exact ⟨i, .self i, h⟩
          · exact ⟨k, .up i j k s hs hj hk, hx⟩
        · rintro ⟨k, hk, hx⟩
          rcases (anc_iff g i k).1 hk with rfl | ⟨s, j, h1, h2, h3⟩
          · exact .inl hx
          · exact .inr ⟨s, h1, j, h2, k, h3, hx⟩
      have hseen : r.1.seen i = true := c i (by simp [setAt])
      refine ⟨?_, ?_, ?_, _, d, hval⟩
      · intro j hj
        by_cases hji : j = i
        · subst hji
          exact ⟨fun h => by rw [hseen] at h; simp at h, fun _ => hval⟩
        · by_cases hlt : rank j < rank i
          · exact a j hlt
          · have := b j (by omega) hji
            have hg := hgood j hj
            simp only [GoodAt, this.1, this.2, setAt, if_neg hji]
            exact hg
      · intro j hj
        have hji : j ≠ i := by rintro rfl; omega
        have := b j (by omega) hji
        rw [this.1, this.2]
        simp [setAt, hji]
      · intro j hj
        apply c
        simp only [setAt]
        split
        · rfl
        · exact hj

end SchemaP
open SchemaP

/-- the results of reading `must` (or `may`) of the given classes one after the other -/
def readAll (g : OCGraph) (fuel : Nat) (st : OCState) : List Nat → List (Except Err (List Str))
  | [] => []
  | i :: is => (mustOf g fuel st i).2 :: readAll g fuel (mustOf g fuel st i).1 is

/-- **C33.** For classes without circular inheritance, whose superclasses' numeric OIDs are defined, reading `must`/`may` of any classes in any order, any number of times, gives
each time exactly the attributes stated by the class or by one of its direct or indirect superclasses. `fuel` is the recursion depth available. -/
theorem c33_inherited_partial (g : OCGraph) (rank : Nat → Nat) (hrank : Ranked g rank) (hres : ∀ i, ∀ s ∈ (g.cls i).supers, ∃ o, g.resolve s = .ok o)
    (fuel : Nat) (reads : List Nat) (hf : ∀ i ∈ reads, rank i < fuel) (n : Nat) (i : Nat) (hi : reads[n]? = some i) :
    ∃ l, (readAll g fuel g.start reads)[n]? = some (.ok l) ∧ ∀ a, a ∈ l ↔ ∃ k, Anc g i k ∧ a ∈ (g.cls k).own := by
  have gen : ∀ (reads : List Nat) (st : OCState), (∀ x, GoodAt g st x) → (∀ i ∈ reads, rank i < fuel) → ∀ (n i : Nat), reads[n]? = some i →
      ∃ l : List Str, (readAll g fuel st reads)[n]? = some (Except.ok l) ∧ ∀ a, a ∈ l ↔ ∃ k, Anc g i k ∧ a ∈ (g.cls k).own := by
    intro reads
    induction reads with
    | nil => simp
    | cons j reads ih =>
      intro st hg hf n i hn
      have hp := must_post g rank hrank hres fuel j (hf j (by simp)) st (fun x _ => hg x)
      cases n with
      | zero =>
        simp at hn
        subst hn
        obtain ⟨l, h1, h2⟩ := hp.val
        exact ⟨l, by simp [readAll, h1], h2⟩
      | succ n =>
        simp only [List.getElem?_cons_succ] at hn
        simp only [readAll, List.getElem?_cons_succ]
        refine ih _ ?_ (fun i hi => hf i (by simp [hi])) n i hn
        intro x
        by_cases hx : rank x ≤ rank j
        · exact hp.good x hx
        · have := hp.rest x (by omega)
          simp only [GoodAt, this.1, this.2]
          exact hg x
  exact gen reads g.start (fun x => ⟨fun _ => rfl, fun h => by simp [OCGraph.start] at h⟩) hf n i hi

/-- C33 is false when a superclass OID is undefined: the first read raises, the next one silently returns the class's own attributes only (and so does every
later one, even if the superclass is defined in the meantime: the second graph is arbitrary). -/
theorem c33_second_read_silent (g g' : OCGraph) (i : Nat) (s : Str) (e : Err) (hs : (g.cls i).supers = [s]) (hr : g.resolve s = .error e) (fuel fuel' : Nat) :
    (mustOf g (fuel + 1) g.start i).2 = .error e ∧ (mustOf g' (fuel' + 1) (mustOf g (fuel + 1) g.start i).1 i).2 = .ok (g.cls i).own := by
  have h : mustOf g (fuel + 1) g.start i = (⟨setAt g.start.seen i true, g.start.mine⟩, .error e) := by
    rw [mustOf, if_neg (by simp [OCGraph.start]), hs]
    simp [mustLoop, hr]
  rw [h]
  refine ⟨rfl, ?_⟩
  simp [mustOf, setAt, OCGraph.start]

/-- Likewise a superclass known only by name when first read is not noticed when it is defined later. -/
theorem c33_late_definition (g g' : OCGraph) (i : Nat) (s : Str) (hs : (g.cls i).supers = [s]) (hr : g.resolve s = .ok none) (fuel fuel' : Nat) :
    (mustOf g (fuel + 1) g.start i).2 = .ok (g.cls i).own ∧ (mustOf g' (fuel' + 1) (mustOf g (fuel + 1) g.start i).1 i).2 = .ok (g.cls i).own := by
  have h : mustOf g (fuel + 1) g.start i = (⟨setAt g.start.seen i true, g.start.mine⟩, .ok (g.cls i).own) := by
    rw [mustOf, if_neg (by simp [OCGraph.start]), hs]
    simp [mustLoop, hr, OCGraph.start]
  rw [h]
  refine ⟨rfl, ?_⟩
  simp [mustOf, setAt, OCGraph.start]

namespace SchemaP

/-- number of classes not yet evaluated -/
def unseen (all : List Nat) (st : OCState) : Nat := (all.filter (fun i => !st.seen i)).length

theorem unseen_set (all : List Nat) (i : Nat) (hi : i ∈ all) (st : OCState) (hs : st.seen i = false) (m : Nat → List Str) :
    unseen all ⟨setAt st.seen i true, m⟩ < unseen all st := by
  simp only [unseen]
  have hle : ∀ l : List Nat, (l.filter (fun j => !setAt st.seen i true j)).length ≤ (l.filter (fun j => !st.seen j)).length := by
    intro l
    induction l with
    | nil => simp
    | cons x l ih =>
      simp only [List.filter_cons, setAt]
      by_cases hx : x = i
      · subst hx
        simp only [if_true, hs, Bool.not_true, Bool.not_false, Bool.false_eq_true, if_false, List.length_cons]
        exact Nat.le_succ_of_le ih
      · simp only [if_neg hx]
        split
        · simp only [List.length_cons]; exact Nat.succ_le_succ ih
        · exact ih
  induction all with
  | nil => simp at hi
  | cons x l ih =>
    by_cases hx : x = i
    · subst hx
      simp only [List.filter_cons, setAt, if_true, hs, Bool.not_true, Bool.not_false, Bool.false_eq_true, if_false, List.length_cons]
      exact Nat.lt_succ_of_le (hle l)
    · have := ih (by simpa [Ne.symm hx] using hi)
      simp only [List.filter_cons, setAt, if_neg hx]
      simp only [setAt] at this
      split
      · simpa using this
      · exact this

theorem must_depth (g : OCGraph) (all : List Nat) (hall : ∀ i ∈ all, ∀ s ∈ (g.cls i).supers, ∀ j, g.resolve s = .ok (some j) → j ∈ all)
    (hne : ∀ s, g.resolve s ≠ .error .recursion) (fuel i : Nat) (hi : i ∈ all) (st : OCState) (hf : unseen all st < fuel) :
    (mustOf g fuel st i).2 ≠ .error .recursion ∧ unseen all (mustOf g fuel st i).1 ≤ unseen all st := by
  induction fuel generalizing i st with
  | zero => omega
  | succ fuel ih =>
    rw [mustOf]
    by_cases hs : st.seen i = true
    · rw [if_pos hs]; simp
    · rw [if_neg hs]
      have hs : st.seen i = false := by simpa using hs
      have hlt := unseen_set all i hi st hs st.mine
      have key : ∀ (ss : List Str), (∀ s ∈ ss, s ∈ (g.cls i).supers) → ∀ st1, unseen all st1 < fuel →
          (mustLoop g (mustOf g fuel) i st1 ss).2 ≠ .error .recursion ∧ unseen all (mustLoop g (mustOf g fuel) i st1 ss).1 ≤ unseen all st1 := by
        intro ss
        induction ss with
        | nil => intro _ st1 _; simp [mustLoop]
        | cons s ss ihs =>
          intro hss st1 h1
          simp only [mustLoop]
          cases hr : g.resolve s with
          | error e =>
            simp only
            refine ⟨?_, Nat.le_refl _⟩
            intro h
            simp at h
            exact hne s (by rw [hr, h])
          | ok o =>
            cases o with
            | none => exact ihs (fun s h => hss s (by simp [h])) st1 h1
            | some j =>
              have hj := hall i hi s (hss s (by simp)) j hr
              obtain ⟨p, q⟩ := ih j hj st1 h1
              simp only
              generalize mustOf g fuel st1 j = m at p q
              obtain ⟨st2, res⟩ := m
              cases res with
              | error e => exact ⟨p, q⟩
              | ok l =>
                simp only at p q ⊢
                have hu : unseen all ⟨st2.seen, setAt st2.mine i (st2.mine i ++ l)⟩ = unseen all st2 := rfl
                obtain ⟨a, b⟩ := ihs (fun s h => hss s (by simp [h])) ⟨st2.seen, setAt st2.mine i (st2.mine i ++ l)⟩ (by rw [hu]; omega)
                exact ⟨a, by rw [hu] at b; omega⟩
      obtain ⟨a, b⟩ := key (g.cls i).supers (fun _ h => h) ⟨setAt st.seen i true, st.mine⟩ (by omega)
      exact ⟨a, by omega⟩

end SchemaP

/-- **C33.** Reading `must`/`may` terminates for every superclass graph, circular or not: a recursion depth of one more than the number of classes is enough. -/
theorem c33_terminates (g : OCGraph) (all : List Nat) (hall : ∀ i ∈ all, ∀ s ∈ (g.cls i).supers, ∀ j, g.resolve s = .ok (some j) → j ∈ all)
    (hne : ∀ s, g.resolve s ≠ .error .recursion) (reads : List Nat) (hi : ∀ i ∈ reads, i ∈ all) :
    ∀ r ∈ readAll g (all.length + 1) g.start reads, r ≠ .error .recursion := by
  have gen : ∀ (reads : List Nat) (st : OCState), (∀ i ∈ reads, i ∈ all) → ∀ r ∈ readAll g (all.length + 1) st reads, r ≠ .error .recursion := by
    intro reads
    induction reads with
    | nil => simp [readAll]
    | cons i reads ih =>
      intro st hi r hr
      have hu : unseen all st < all.length + 1 := Nat.lt_succ_of_le (List.length_filter_le _ _)
      simp only [readAll, List.mem_cons] at hr
      rcases hr with rfl | hr
      · exact (must_depth g all hall hne _ i (hi i (by simp)) st hu).1
      · exact ih _ (fun i h => hi i (by simp [h])) r hr
  exact gen reads g.start hi

/-- person ← organizationalPerson ← inetOrgPerson, read in two orders; and a circular pair -/
def ocEx : OCGraph where
  cls := fun i => match i with
    | 0 => ⟨[], [str "sn", str "cn"]⟩
    | 1 => ⟨[str "person"], [str "title"]⟩
    | 2 => ⟨[str "organizationalPerson"], [str "mail"]⟩
    | 3 => ⟨[str "loop4", str "person"], [str "a"]⟩
    | _ => ⟨[str "loop3"], [str "b"]⟩
  resolve := fun s => if s = str "person" then .ok (some 0) else if s = str "organizationalPerson" then .ok (some 1)
    else if s = str "loop3" then .ok (some 3) else if s = str "loop4" then .ok (some 4) else .ok none

example : readAll ocEx 5 ocEx.start [2, 0, 1, 2] =
    [.ok [str "mail", str "title", str "sn", str "cn"], .ok [str "sn", str "cn"], .ok [str "title", str "sn", str "cn"],
     .ok [str "mail", str "title", str "sn", str "cn"]] := by rfl

/-- the hypotheses of `c33_inherited_partial` hold of the non-circular part -/
def ocEx2 : OCGraph := { ocEx with cls := fun i => if i < 3 then ocEx.cls i else ⟨[], []⟩ }
example : Ranked ocEx2 (fun i => i) := by
  intro i j s hs hr
  match i with
  | 0 => simp [ocEx2, ocEx] at hs
  | 1 => simp [ocEx2, ocEx] at hs; subst hs; simp [ocEx2, ocEx] at hr; subst hr; decide
  | 2 => simp [ocEx2, ocEx] at hs; subst hs; simp [ocEx2, ocEx] at hr; subst hr; decide
  | n + 3 => have h3 : ¬ (n + 3 < 3) := by omega
             simp [ocEx2, h3] at hs

/-- C33 is false for circular inheritance: class 4 does not get the attributes of class 0, which is above it -/
example : readAll ocEx 5 ocEx.start [3, 4] = [.ok [str "a", str "b", str "a", str "sn", str "cn"], .ok [str "b", str "a"]] := by rfl

/-- **C34.** A property that an attribute type does not state is that of the nearest type up the line of supertypes that states it. -/
theorem c34_nearest {F X : Type} (g : ATGraph F X) (f : F) (line : List Nat) (t : Nat) (hl : Line g (t :: line)) (x : X)
    (hx : (t :: line).findSome? (fun t => (g.spec t).own f) = some x) (fuel : Nat) (hf : (t :: line).length ≤ fuel) : getAttrOf g f fuel t = .ok x := by
  induction line generalizing t fuel with
  | nil =>
    obtain ⟨fuel, rfl⟩ : ∃ n, fuel = n + 1 := ⟨fuel - 1, by simp at hf; omega⟩
    simp only [List.findSome?] at hx
    simp only [getAttrOf]
    cases h : (g.spec t).own f with
    | some y => simp [h] at hx; simp [hx]
    | none => simp [h] at hx
  | cons t' line ih =>
    obtain ⟨fuel, rfl⟩ : ∃ n, fuel = n + 1 := ⟨fuel - 1, by simp at hf; omega⟩
    obtain ⟨⟨s, h1, h2⟩, hl'⟩ := hl
    rw [List.findSome?_cons] at hx
    simp only [getAttrOf]
    cases h : (g.spec t).own f with
    | some y => simp [h] at hx; simp [hx]
    | none =>
      simp only [h] at hx
      simp only [h1, h2]
      exact ih t' hl' hx fuel (by simp at hf ⊢; omega)

/-- **C34.** A property stated nowhere on the line up to a type without supertype has its default value. -/
theorem c34_default {F X : Type} (g : ATGraph F X) (f : F) (line : List Nat) (t : Nat) (hl : Line g (t :: line))
    (hx : ∀ t' ∈ t :: line, (g.spec t').own f = none) (hroot : ∀ t', (t :: line).getLast? = some t' → (g.spec t').supertype = none)
    (fuel : Nat) (hf : (t :: line).length ≤ fuel) : getAttrOf g f fuel t = .ok (g.dflt f) := by
  induction line generalizing t fuel with
  | nil =>
    obtain ⟨fuel, rfl⟩ : ∃ n, fuel = n + 1 := ⟨fuel - 1, by simp at hf; omega⟩
    simp [getAttrOf, hx t (by simp), hroot t (by simp)]
  | cons t' line ih =>
    obtain ⟨fuel, rfl⟩ : ∃ n, fuel = n + 1 := ⟨fuel - 1, by simp at hf; omega⟩
    obtain ⟨⟨s, h1, h2⟩, hl'⟩ := hl
    simp only [getAttrOf, hx t (by simp), h1, h2]
    exact ih t' hl' (fun x h => hx x (by simp [h])) (fun x h => hroot x (by simpa using h)) fuel (by simp at hf ⊢; omega)

/-- **C34.** The syntax (equality) rule of a type that states none is its supertype's rule, whatever that is – including the error raised when there is none; and
when the supertype is not defined, the default rule. -/
theorem c34_rule {F X R : Type} (g : ATGraph F X) (f : F) (ruleOf : X → Except Err R) (dr : R) (t : Nat) (s : Str) (hown : (g.spec t).own f = none)
    (hs : (g.spec t).supertype = some s) (fuel : Nat) :
    (∀ t', g.resolve s = .ok (some t') → ruleOfType g f ruleOf dr (fuel + 2) t = ruleOfType g f ruleOf dr (fuel + 1) t') ∧
    (g.resolve s = .ok none → g.undefinedType f = none → ruleOfType g f ruleOf dr (fuel + 2) t = .ok dr) := by
  refine ⟨?_, ?_⟩
  · intro t' ht
    have h1 : getAttrOf g f (fuel + 2) t = getAttrOf g f (fuel + 1) t' := by
      rw [getAttrOf]; simp [hown, hs, ht]
    rw [ruleOfType, h1]
    simp only [hs, ht]
    rw [ruleOfType]
    cases getAttrOf g f (fuel + 1) t' with
    | ok x => rfl
    | error e => cases e <;> rfl
  · intro ht hu
    have h1 : getAttrOf g f (fuel + 2) t = .error .attributeError := by
      rw [getAttrOf]; simp [hown, hs, ht, hu]
    rw [ruleOfType, h1]
    simp [hs, ht]

/-- `cn SUP name`, `name` states everything -/
def atEx : ATGraph Bool Nat where
  spec := fun i => match i with
    | 0 => ⟨fun _ => some 7, none⟩
    | 1 => ⟨fun _ => none, some (str "name")⟩
    | _ => ⟨fun b => if b then some 3 else none, some (str "cn")⟩
  resolve := fun s => if s = str "name" then .ok (some 0) else if s = str "cn" then .ok (some 1) else .ok none
  dflt := fun _ => 0
  undefinedType := fun _ => none

example : Line atEx [2, 1, 0] := ⟨⟨str "cn", rfl, by rfl⟩, ⟨str "name", rfl, by rfl⟩, trivial⟩
example : getAttrOf atEx true 3 2 = .ok 3 ∧ getAttrOf atEx false 3 2 = .ok 7 := by decide

/-! ### C35 -/

namespace SchemaP
variable {V : Type}

theorem ebind_ok {α β : Type} (a : Except Err α) (f : α → Except Err β) (y : β) : (a >>= f) = .ok y ↔ ∃ x, a = .ok x ∧ f x = .ok y := by
  cases a <;> simp [bind, Except.bind]

theorem validateAll_iff (a : AttrInfo V) (vs : List V) : validateAll a vs = .ok () ↔ ∀ v ∈ vs, a.validate v = .ok () := by
  induction vs with
  | nil => simp [validateAll]
  | cons v vs ih =>
    simp only [validateAll, ebind_ok, ih, List.mem_cons, forall_eq_or_imp]
    constructor
    · rintro ⟨_, h1, h2⟩; exact ⟨h1, h2⟩
    · rintro ⟨h1, h2⟩; exact ⟨(), h1, h2⟩

theorem validate_iff (a : AttrInfo V) (v : V) :
    a.validate v = .ok () ↔ a.syn v = .ok () ∧ ∃ n, a.syntaxLength = .ok n ∧ (n > -1 → (a.length v : Int) ≤ n) := by
  simp only [AttrInfo.validate, ebind_ok]
  constructor
  · rintro ⟨n, h1, h2⟩
    split at h2
    · simp at h2
    · rename_i h
      exact ⟨h2, n, h1, fun hn => by omega⟩
  · rintro ⟨h1, n, h2, h3⟩
    refine ⟨n, h2, ?_⟩
    rw [if_neg]
    · exact h1
    · rintro ⟨a, b⟩; have := h3 a; omega

theorem validateAttribute_iff (s : SchemaEnv V) (name : Str) (vs : List V) (write : Bool) :
    validateAttribute s name vs write = .ok () ↔ ∃ a, s.attrOf name = .ok a ∧ GoodValues a vs write := by
  simp only [validateAttribute, ebind_ok]
  constructor
  · rintro ⟨a, h1, ob, h2, sv, h3, h4⟩
    refine ⟨a, h1, ?_⟩
    split at h4
    · simp at h4
    · rename_i hsv
      simp only [ebind_ok] at h4
      obtain ⟨bad, h5, h6⟩ := h4
      split at h6
      · simp at h6
      · rename_i hbad
        have hbad : bad = false := by simpa using hbad
        subst hbad
        refine ⟨⟨ob, h2⟩, ?_, ?_, ?_⟩
        · cases sv with
          | false => exact .inl h3
          | true => exact .inr ⟨h3, by simpa using hsv⟩
        · intro hw; simpa [hw] using h5
        · intro v hv
          exact (validate_iff a v).1 ((validateAll_iff a vs).1 h6 v hv)
  · rintro ⟨a, h1, ⟨ob, h2⟩, hsv, hu, hvals⟩
    have hall := (validateAll_iff a vs).2 (fun v hv => (validate_iff a v).2 (hvals v hv))
    have hb : (if write = true then a.noUserMod else Except.ok false) = .ok false := by
      cases write with
      | true => simpa using hu rfl
      | false => rfl
    rcases hsv with h3 | ⟨h3, h4⟩
    · exact ⟨a, h1, ob, h2, false, h3, by simp [hb, bind, Except.bind, hall]⟩
    · refine ⟨a, h1, ob, h2, true, h3, ?_⟩
      have : ¬ vs.length > 1 := by omega
      simp [hb, bind, Except.bind, hall, this]

theorem validateItems_iff (s : SchemaEnv V) (write : Bool) (l : List (Str × List V)) :
    validateItems s write l = .ok () ↔ ∀ kv ∈ l, ∃ a, s.attrOf kv.1 = .ok a ∧ GoodValues a kv.2 write := by
  induction l with
  | nil => simp [validateItems]
  | cons kv l ih =>
    simp only [validateItems, ebind_ok, ih, List.mem_cons, forall_eq_or_imp]
    rw [← validateAttribute_iff]
    constructor
    · rintro ⟨_, h1, h2⟩; exact ⟨h1, h2⟩
    · rintro ⟨h1, h2⟩; exact ⟨(), h1, h2⟩

theorem classLists_ok (s : SchemaEnv V) (vs : List V) (r : List Str × List Str) (h : classLists s vs = .ok r) :
    (∀ v ∈ vs, ∃ p, s.classOf (s.className v) = .ok p) ∧
    (∀ a, a ∈ r.1 ↔ ∃ v ∈ vs, ∃ p, s.classOf (s.className v) = .ok p ∧ a ∈ p.1) ∧
    (∀ a, a ∈ r.2 ↔ ∃ v ∈ vs, ∃ p, s.classOf (s.className v) = .ok p ∧ a ∈ p.2) := by
  induction vs generalizing r with
  | nil => simp [classLists] at h; subst h; simp
  | cons v vs ih =>
    simp only [classLists, ebind_ok] at h
    obtain ⟨c, h1, r', h2, h3⟩ := h
    simp [pure, Except.pure] at h3
    subst h3
    obtain ⟨a, b, d⟩ := ih r' h2
    refine ⟨?_, ?_, ?_⟩
    · intro v' hv'
      rcases List.mem_cons.1 hv' with rfl | hv'
      · exact ⟨c, h1⟩
      · exact a v' hv'
    · intro x
      simp only [List.mem_append, b, List.mem_cons, exists_eq_or_imp, h1, Except.ok.injEq, exists_eq_left']
    · intro x
      simp only [List.mem_append, d, List.mem_cons, exists_eq_or_imp, h1, Except.ok.injEq, exists_eq_left']

theorem classLists_ex (s : SchemaEnv V) (vs : List V) (h : ∀ v ∈ vs, ∃ p, s.classOf (s.className v) = .ok p) : ∃ r, classLists s vs = .ok r := by
  induction vs with
  | nil => exact ⟨_, rfl⟩
  | cons v vs ih =>
    obtain ⟨p, hp⟩ := h v (by simp)
    obtain ⟨r, hr⟩ := ih (fun v hv => h v (by simp [hv]))
    exact ⟨(p.1 ++ r.1, p.2 ++ r.2), by simp [classLists, hp, hr, bind, Except.bind, pure, Except.pure]⟩

end SchemaP

section
variable {V : Type} (lower : Str → Str) (s : SchemaEnv V)

/-- **C35 (exactly what is accepted).** An object is accepted iff it has an `objectClass`, all its classes are resolvable, each required attribute is present *spelled as
in the schema*, each attribute present is required or allowed *spelled as in the schema*, and all values are acceptable. -/
theorem c35_exact (obj : CIDict Str (List V)) (write : Bool) :
    validateObject lower s obj write = .ok () ↔
      (∃ classes, obj.getItem lower (str "objectClass") = .ok classes ∧
        (∀ v ∈ classes, ∃ p, s.classOf (s.className v) = .ok p ∧ ∀ a ∈ p.1, a ∈ obj.items.map Prod.fst) ∧
        (∀ k ∈ obj.items.map Prod.fst, ∃ v ∈ classes, ∃ p, s.classOf (s.className v) = .ok p ∧ (k ∈ p.1 ∨ k ∈ p.2))) ∧
      ∀ kv ∈ obj.items, ∃ a, s.attrOf kv.1 = .ok a ∧ GoodValues a kv.2 write := by
  simp only [validateObject]
  cases hoc : obj.getItem lower (str "objectClass") with
  | error e => simp
  | ok classes =>
    simp only [Except.ok.injEq, exists_eq_left']
    cases hcl : classLists s classes with
    | error e =>
      simp only [reduceCtorEq, false_iff]
      rintro ⟨⟨h1, _⟩, _⟩
      obtain ⟨r, hr⟩ := classLists_ex s classes (fun v hv => by obtain ⟨p, hp, _⟩ := h1 v hv; exact ⟨p, hp⟩)
      rw [hcl] at hr; simp at hr
    | ok r =>
      obtain ⟨required, allowed⟩ := r
      obtain ⟨hk, hreq, hall⟩ := classLists_ok s classes _ hcl
      simp only at hreq hall ⊢
      generalize hkeys : obj.items.map Prod.fst = keys
      by_cases h1 : required.any (fun a => !keys.contains a) = true
      · rw [if_pos h1]
        simp only [reduceCtorEq, false_iff]
        rintro ⟨⟨h2, _⟩, _⟩
        simp only [List.any_eq_true, Bool.not_eq_true', List.contains_eq_mem, decide_eq_false_iff_not] at h1
        obtain ⟨a, ha, hna⟩ := h1
        obtain ⟨v, hv, p, hp, hap⟩ := (hreq a).1 ha
        obtain ⟨p', hp', h3⟩ := h2 v hv
        rw [hp] at hp'; cases hp'
        exact hna (h3 a hap)
      · rw [if_neg h1]
        have h1' : ∀ a ∈ required, a ∈ keys := by
          intro a ha
          simp only [List.any_eq_true, not_exists, not_and] at h1
          simpa using h1 a ha
        by_cases h2 : keys.any (fun k => !required.contains k && !allowed.contains k) = true
        · rw [if_pos h2]
          simp only [reduceCtorEq, false_iff]
          rintro ⟨⟨_, h3⟩, _⟩
          simp only [List.any_eq_true, Bool.and_eq_true, Bool.not_eq_true', List.contains_eq_mem, decide_eq_false_iff_not] at h2
          obtain ⟨k, hkk, hn1, hn2⟩ := h2
          obtain ⟨v, hv, p, hp, hkp⟩ := h3 k hkk
          rcases hkp with hkp | hkp
          · exact hn1 ((hreq k).2 ⟨v, hv, p, hp, hkp⟩)
          · exact hn2 ((hall k).2 ⟨v, hv, p, hp, hkp⟩)
        · rw [if_neg h2, validateItems_iff]
          have h2' : ∀ k ∈ keys, k ∈ required ∨ k ∈ allowed := by
            intro k hkk
            simp only [List.any_eq_true, not_exists, not_and] at h2
            have := h2 k hkk
            simp at this
            by_cases hr : k ∈ required
            · exact .inl hr
            · exact .inr (this hr)
          constructor
          · intro h
            refine ⟨⟨?_, ?_⟩, h⟩
            · intro v hv
              obtain ⟨p, hp⟩ := hk v hv
              exact ⟨p, hp, fun a ha => h1' a ((hreq a).2 ⟨v, hv, p, hp, ha⟩)⟩
            · intro k hkk
              rcases h2' k hkk with hr | hr
              · obtain ⟨v, hv, p, hp, ha⟩ := (hreq k).1 hr
                exact ⟨v, hv, p, hp, .inl ha⟩
              · obtain ⟨v, hv, p, hp, ha⟩ := (hall k).1 hr
                exact ⟨v, hv, p, hp, .inr ha⟩
          · exact fun h => h.2

/-- **C35 (soundness).** Every accepted object conforms to the schema. -/
theorem c35_sound (extensible : Str → Prop) (obj : CIDict Str (List V)) (write : Bool) (h : validateObject lower s obj write = .ok ()) :
    Conforms lower s extensible obj write := by
  obtain ⟨⟨cl, h1, h2, h3⟩, h4⟩ := (c35_exact lower s obj write).1 h
  refine ⟨⟨cl, h1, ?_, ?_⟩, h4⟩
  · intro v hv
    obtain ⟨p, hp, ha⟩ := h2 v hv
    exact ⟨p, hp, fun a h => ⟨a, ha a h, rfl⟩⟩
  · intro k hk
    obtain ⟨v, hv, p, hp, ha⟩ := h3 k hk
    exact ⟨v, hv, p, hp, .inr ⟨k, ha, rfl⟩⟩

/-- **C35 (completeness, partial).** A conforming object is accepted if its attribute names are spelled as in its classes and no class is extensible.
Without these conditions it is refused: `c35_case_refused`. -/
theorem c35_complete_partial (obj : CIDict Str (List V)) (write : Bool)
    (hspell : ∀ classes, obj.getItem lower (str "objectClass") = .ok classes → ∀ v ∈ classes, ∀ p, s.classOf (s.className v) = .ok p →
      ∀ a, a ∈ p.1 ∨ a ∈ p.2 → ∀ k ∈ obj.items.map Prod.fst, lower a = lower k → a = k)
    (h : Conforms lower s (fun _ => False) obj write) : validateObject lower s obj write = .ok () := by
  rw [c35_exact]
  obtain ⟨⟨cl, h1, h2, h3⟩, h4⟩ := h
  refine ⟨⟨cl, h1, ?_, ?_⟩, h4⟩
  · intro v hv
    obtain ⟨p, hp, ha⟩ := h2 v hv
    refine ⟨p, hp, fun a h => ?_⟩
    obtain ⟨k, hk, hl⟩ := ha a h
    rw [hspell cl h1 v hv p hp a (.inl h) k hk hl.symm]
    exact hk
  · intro k hk
    obtain ⟨v, hv, p, hp, h | ⟨a, ha, hl⟩⟩ := h3 k hk
    · exact h.elim
    · have := hspell cl h1 v hv p hp a ha k hk hl
      subst this
      exact ⟨v, hv, p, hp, ha⟩

/-- C35 is false for the spelling of names: an object that has an attribute none of its classes names with that very spelling is refused: also when a class names
it in other case, or when one of the classes is `extensibleObject` (whose `must` and `may` are those of any other class). -/
theorem c35_case_refused (obj : CIDict Str (List V)) (write : Bool) (classes : List V) (hc : obj.getItem lower (str "objectClass") = .ok classes)
    (k : Str) (hk : k ∈ obj.items.map Prod.fst) (hno : ∀ v ∈ classes, ∀ p, s.classOf (s.className v) = .ok p → k ∉ p.1 ∧ k ∉ p.2) :
    validateObject lower s obj write ≠ .ok () := by
  intro h
  obtain ⟨⟨cl, h1, _, h3⟩, _⟩ := (c35_exact lower s obj write).1 h
  rw [hc] at h1; cases h1
  obtain ⟨v, hv, p, hp, ha | ha⟩ := h3 k hk
  · exact (hno v hv p hp).1 ha
  · exact (hno v hv p hp).2 ha

/-- C35 is false for undefined attribute types: any value of an attribute whose type has no readable syntax length (the default type of an undefined attribute) raises. -/
theorem c35_undefined_type_refused (obj : CIDict Str (List V)) (write : Bool) (kv : Str × List V) (hkv : kv ∈ obj.items) (hne : kv.2 ≠ []) (a : AttrInfo V)
    (ha : s.attrOf kv.1 = .ok a) (e : Err) (hl : a.syntaxLength = .error e) : validateObject lower s obj write ≠ .ok () := by
  intro h
  obtain ⟨a', ha', hg⟩ := ((c35_exact lower s obj write).1 h).2 kv hkv
  rw [ha] at ha'; cases ha'
  obtain ⟨v, hv⟩ := List.exists_mem_of_ne_nil _ hne
  obtain ⟨_, n, hn, _⟩ := hg.values v hv
  rw [hl] at hn; simp at hn

/-- **C35 (modifications).** A modification is accepted iff every change that carries values carries acceptable ones; changes without values (deleting a whole attribute) are not looked at,
so those to attributes that are not user modifiable pass. -/
theorem c35_modify (mods : List (Str × List V)) :
    validateModify s mods = .ok () ↔ ∀ m ∈ mods, m.2 ≠ [] → ∃ a, s.attrOf m.1 = .ok a ∧ GoodValues a m.2 true := by
  induction mods with
  | nil => simp [validateModify]
  | cons m ms ih =>
    simp only [validateModify, List.mem_cons, forall_eq_or_imp]
    by_cases hm : m.2 = []
    · simp only [hm, if_true, ih, ne_eq, not_true_eq_false, false_implies, true_and]
    · simp only [hm, if_false, ebind_ok, ih, ne_eq, not_false_eq_true, forall_const]
      rw [← validateAttribute_iff]
      constructor
      · rintro ⟨_, h1, h2⟩; exact ⟨h1, h2⟩
      · rintro ⟨h1, h2⟩; exact ⟨(), h1, h2⟩

end

/-! ### instances -/

/-- a class requiring `cn` and allowing `mail`; `cn` single-valued; class `ext` stands for extensibleObject, whose `must` and `may` are empty -/
def schEx : SchemaEnv Str where
  classOf := fun c => if c = str "person" then .ok ([str "objectClass", str "cn"], [str "mail"]) else .ok ([], [])
  attrOf := fun a => .ok ⟨.ok (a = str "cn"), .ok (a = str "uuid"), .ok false, .ok 5, fun v => if v = [] then .error .invalidSyntax else .ok (), List.length⟩
  className := fun v => v

example : validateObject id { schEx with attrOf := fun a => if a = str "objectClass" then .ok ⟨.ok false, .ok false, .ok false, .ok (-1), fun _ => .ok (), List.length⟩ else schEx.attrOf a }
    (CIDict.update id CIDict.empty [(str "objectClass", [str "person"]), (str "cn", [str "x"]), (str "mail", [str "a", str "b"])]) true = .ok () := by decide

example : ∃ s obj, Conforms (V := Str) id s (fun _ => False) obj true :=
  ⟨_, _, c35_sound id { schEx with attrOf := fun a => if a = str "objectClass" then .ok ⟨.ok false, .ok false, .ok false, .ok (-1), fun _ => .ok (), List.length⟩ else schEx.attrOf a } _
    (CIDict.update id CIDict.empty [(str "objectClass", [str "person"]), (str "cn", [str "x"]), (str "mail", [str "a", str "b"])]) true (by decide)⟩

/-- C35 is false for extensible objects: an attribute no other class allows is refused although the object has the extensible class -/
example :
    let obj : CIDict Str (List Str) := CIDict.update id CIDict.empty [(str "objectClass", [str "person", str "ext"]), (str "cn", [str "x"]), (str "foo", [str "a"])]
    validateObject id schEx obj true = .error .ldapValidation := by decide

end Laurelin.Props
