import Verif.Props.SchemaSpec
/-!
Writing descriptions down: a text for what an attribute type or object class description says. Used to check the descriptions that are shipped without running the
(expensive) matcher on them.
-/
namespace Laurelin.Render
open Laurelin Spec Spec.Rfc4512 Spec.Abnf 
local notation "codeLex" => Laurelin.SchemaSpec.codeLex

def okKey : Str → Bool
  | [] => false
  | c :: t => isAlpha c && t.all (fun c => isAlpha c || isDigit c || c == '-')

def okNum (s : Str) : Bool := !s.isEmpty && s.all isDigit

/-- digits and dots: at least two groups of digits -/
def okNoid : Str → Bool → Bool → Bool
  | [], dots, dig => dots && dig
  | c :: t, dots, dig => if c = '.' then dig && okNoid t true false else isDigit c && okNoid t dots true

def okNumericoid (s : Str) : Bool := okNoid s false false
def okOid (s : Str) : Bool := okKey s || okNumericoid s
def okDesc (s : Str) : Bool := !s.isEmpty && s.all (fun c => c != '\'' && c != '\\')

theorem chars_many {p : Char → Bool} {t : Str} (h : ∀ c ∈ t, p c = true) : many (chr p) t := by
  refine ⟨t.map (fun c => [c]), ?_, ?_⟩
  · clear h; induction t with
    | nil => rfl
    | cons c t ih => simp only [List.map_cons, List.flatten_cons, ← ih]; rfl
  · intro u hu
    obtain ⟨c, hc, rfl⟩ := List.mem_map.1 hu
    exact ⟨c, rfl, h c hc⟩

theorem chars_many1 {p : Char → Bool} {t : Str} (hn : t ≠ []) (h : ∀ c ∈ t, p c = true) : many1 (chr p) t := by
  obtain ⟨l, e, hl⟩ := chars_many h
  refine ⟨l, ?_, e, hl⟩
  rintro rfl; exact hn e

theorem key_of {s : Str} (h : okKey s = true) : keystring s := by
  cases s with
  | nil => cases h
  | cons c t =>
    simp only [okKey, Bool.and_eq_true, List.all_eq_true] at h
    exact ⟨[c], t, rfl, ⟨c, rfl, h.1⟩, chars_many h.2⟩

theorem num_of {s : Str} (hn : s ≠ []) (h : ∀ c ∈ s, isDigit c = true) : looseNumber s := chars_many1 hn h

theorem okNoid_spec (s : Str) : ∀ (cur : Str) (dots : Bool), (∀ c ∈ cur, isDigit c = true) → okNoid s dots (decide (cur ≠ [])) = true →
    ∃ a l, cur ++ s = a ++ List.flatten (l.map (fun x => '.' :: x)) ∧ (a ≠ [] ∧ ∀ c ∈ a, isDigit c = true) ∧ (∀ x ∈ l, x ≠ [] ∧ ∀ c ∈ x, isDigit c = true) ∧ (dots = false → l ≠ []) := by
  induction s with
  | nil =>
    intro cur dots hc h
    simp only [okNoid, Bool.and_eq_true, decide_eq_true_eq] at h
    exact ⟨cur, [], by simp, ⟨h.2, hc⟩, by simp, by intro hd; rw [hd] at h; cases h.1⟩
  | cons c t ih =>
    intro cur dots hc h
    rw [okNoid] at h
    by_cases hdot : c = '.'
    · rw [if_pos hdot] at h
      simp only [Bool.and_eq_true, decide_eq_true_eq] at h
      obtain ⟨a, l, e, ha, hl, _⟩ := ih [] true (by simp) (by simpa using h.2)
      refine ⟨cur, a :: l, ?_, ⟨h.1, hc⟩, ?_, by simp⟩
      · subst hdot
        simp only [List.nil_append] at e
        simp [e]
      · intro x hx
        rcases List.mem_cons.1 hx with rfl | hx
        · exact ha
        · exact hl x hx
    · rw [if_neg hdot] at h
      simp only [Bool.and_eq_true] at h
      obtain ⟨a, l, e, ha, hl, hd⟩ := ih (cur ++ [c]) dots (by
        intro x hx
        rcases List.mem_append.1 hx with hx | hx
        · exact hc x hx
        · rw [List.mem_singleton.1 hx]; exact h.1) (by simpa using h.2)
      exact ⟨a, l, by simpa using e, ha, hl, hd⟩

theorem noid_of {s : Str} (h : okNumericoid s = true) : numericoid codeLex s := by
  obtain ⟨a, l, e, ha, hl, hd⟩ := okNoid_spec s [] false (by simp) (by simpa [okNumericoid] using h)
  refine ⟨a, _, by simpa using e, num_of ha.1 ha.2, l.map (fun x => '.' :: x), by simpa using hd rfl, rfl, ?_⟩
  intro u hu
  obtain ⟨x, hx, rfl⟩ := List.mem_map.1 hu
  exact ⟨['.'], x, rfl, rfl, num_of (hl x hx).1 (hl x hx).2⟩

theorem oid_of {s : Str} (h : okOid s = true) : Rfc4512.oid codeLex s := by
  simp only [okOid, Bool.or_eq_true] at h
  exact h.elim (fun h => .inl (key_of h)) (fun h => .inr (noid_of h))

theorem desc_of {s : Str} (h : okDesc s = true) : dstring s := by
  simp only [okDesc, Bool.and_eq_true, Bool.not_eq_true', List.isEmpty_eq_false_iff, List.all_eq_true, bne_iff_ne, ne_eq] at h
  refine ⟨s.map (fun c => [c]), by simpa using h.1, ?_, ?_⟩
  · clear h; induction s with
    | nil => rfl
    | cons c t ih => simp only [List.map_cons, List.flatten_cons, ← ih]; rfl
  · intro u hu
    obtain ⟨c, hc, rfl⟩ := List.mem_map.1 hu
    refine .inr (.inr ⟨c, rfl, ?_⟩)
    have := h.2 c hc
    simp [this.1, this.2]

/-! ### Texts -/

def quoted (s : Str) : Str := '\'' :: (s ++ ['\''])
def part (key : Str) : Option Str → Str
  | none => []
  | some v => ' ' :: (key ++ (' ' :: v))
def flag (key : Str) (b : Bool) : Str := if b then ' ' :: key else []
def moreNames : List Str → Str
  | [] => []
  | n :: l => ' ' :: (quoted n ++ moreNames l)
def names : List Str → Option Str
  | [] => none
  | [n] => some (quoted n)
  | n :: l => some ('(' :: ' ' :: (quoted n ++ (moreNames l ++ [' ', ')'])))
def moreOids : List Str → Str
  | [] => []
  | o :: l => ' ' :: '$' :: ' ' :: (o ++ moreOids l)
def oids : List Str → Option Str
  | [] => none
  | [o] => some o
  | o :: l => some ('(' :: ' ' :: (o ++ (moreOids l ++ [' ', ')'])))
def synt : Str × Option Str → Str
  | (o, none) => o
  | (o, some n) => o ++ ('{' :: (n ++ ['}']))

theorem spc : SP codeLex [' '] := ⟨[[' ']], by simp, by simp, by intro u hu; exact ⟨' ', by simpa using hu, rfl⟩⟩
theorem wspc : WSP codeLex [' '] := ⟨[[' ']], by simp, by intro u hu; exact ⟨' ', by simpa using hu, rfl⟩⟩

theorem part_of {α : Type} (key : Str) (val : α → Language) (f : α → Str) (o : Option α) (h : ∀ a, o = some a → val a (f a)) :
    Rfc4512.part codeLex key val o (part key (o.map f)) := by
  cases o with
  | none => rfl
  | some a => exact ⟨[' '], key ++ ' ' :: f a, rfl, spc, key, ' ' :: f a, rfl, rfl, [' '], f a, rfl, spc, h a rfl⟩

theorem flag_of (key : Str) (b : Bool) : Rfc4512.flag codeLex key b (flag key b) := by
  cases b with
  | false => rfl
  | true => exact ⟨[' '], key, rfl, spc, rfl⟩

theorem quoted_of {n : Str} (h : okKey n = true) : qdescr n (quoted n) := ⟨['\''], n ++ ['\''], rfl, rfl, n, ['\''], rfl, ⟨rfl, key_of h⟩, rfl⟩

theorem moreNames_of : ∀ (l : List Str), (∀ n ∈ l, okKey n = true) → Rfc4512.moreNames codeLex l (moreNames l)
  | [], _ => rfl
  | n :: l, h => ⟨[' '], quoted n ++ moreNames l, rfl, spc, quoted n, moreNames l, rfl, quoted_of (h n (by simp)), moreNames_of l (fun x hx => h x (by simp [hx]))⟩

theorem names_of (l : List Str) (h : ∀ n ∈ l, okKey n = true) : Rfc4512.listPart codeLex (str "NAME") (qdescrs codeLex) l (part (str "NAME") (names l)) := by
  unfold Rfc4512.listPart
  match l, h with
  | [], _ => rfl
  | [n], h => exact part_of (str "NAME") (qdescrs codeLex) (fun _ => quoted n) (some [n]) (by rintro a e; cases e; exact .inl ⟨rfl, quoted_of (h n (by simp))⟩)
  | n :: m :: l, h =>
    refine part_of (str "NAME") (qdescrs codeLex) (fun _ => '(' :: ' ' :: (quoted n ++ (moreNames (m :: l) ++ [' ', ')']))) (some (n :: m :: l)) ?_
    rintro a e; cases e
    exact .inr ⟨['('], _, rfl, rfl, [' '], _, rfl, wspc, quoted n, _, rfl, quoted_of (h n (by simp)), moreNames (m :: l), _, rfl,
      moreNames_of _ (fun x hx => h x (List.mem_cons_of_mem _ hx)), [' '], [')'], rfl, wspc, rfl⟩

theorem moreOids_of : ∀ (l : List Str), (∀ n ∈ l, okOid n = true) → Rfc4512.moreOids codeLex l (moreOids l)
  | [], _ => rfl
  | n :: l, h => ⟨[' '], _, rfl, wspc, ['$'], _, rfl, rfl, [' '], _, rfl, wspc, n, moreOids l, rfl, ⟨rfl, oid_of (h n (by simp))⟩, moreOids_of l (fun x hx => h x (by simp [hx]))⟩

theorem oids_of (key : Str) (l : List Str) (h : ∀ n ∈ l, okOid n = true) : Rfc4512.listPart codeLex key (Rfc4512.oids codeLex) l (part key (oids l)) := by
  unfold Rfc4512.listPart
  match l, h with
  | [], _ => rfl
  | [n], h => exact part_of key (Rfc4512.oids codeLex) (fun _ => n) (some [n]) (by rintro a e; cases e; exact .inl ⟨rfl, rfl, oid_of (h n (by simp))⟩)
  | n :: m :: l, h =>
    refine part_of key (Rfc4512.oids codeLex) (fun _ => '(' :: ' ' :: (n ++ (moreOids (m :: l) ++ [' ', ')']))) (some (n :: m :: l)) ?_
    rintro a e; cases e
    exact .inr ⟨['('], _, rfl, rfl, [' '], _, rfl, wspc, n, _, rfl, ⟨rfl, oid_of (h n (by simp))⟩, moreOids (m :: l), _, rfl,
      moreOids_of _ (fun x hx => h x (List.mem_cons_of_mem _ hx)), [' '], [')'], rfl, wspc, rfl⟩

/-- an attribute type description with the text of `DESC` and the digits of the length -/
structure AT where
  oid : Str
  names : List Str
  desc : Option Str
  obsolete : Bool
  sup : Option Str
  equality : Option Str
  ordering : Option Str
  substr : Option Str
  synt : Option (Str × Option Str)
  singleValue : Bool
  collective : Bool
  noUserMod : Bool
  usage : Option Str

/-- what it says -/
def AT.says (a : AT) : Rfc4512.AttributeType :=
  ⟨a.oid, a.names, a.desc.isSome, a.obsolete, a.sup, a.equality, a.ordering, a.substr, a.synt.map (fun p => (p.1, p.2.map decimal)), a.singleValue, a.collective, a.noUserMod, a.usage⟩

def optAll {α : Type} (p : α → Bool) : Option α → Bool
  | none => true
  | some a => p a

def AT.ok (a : AT) : Bool :=
  okNumericoid a.oid && a.names.all okKey && optAll okDesc a.desc && optAll okOid a.sup && optAll okOid a.equality && optAll okOid a.ordering && optAll okOid a.substr &&
  optAll (fun p => okNumericoid p.1 && optAll okNum p.2) a.synt && optAll (fun u => usages.contains u) a.usage

def AT.text (a : AT) : Str :=
  '(' :: ' ' :: (a.oid ++ (part (str "NAME") (Render.names a.names) ++ (part (str "DESC") (a.desc.map quoted) ++ (flag (str "OBSOLETE") a.obsolete ++ (part (str "SUP") a.sup ++
    (part (str "EQUALITY") a.equality ++ (part (str "ORDERING") a.ordering ++ (part (str "SUBSTR") a.substr ++ (part (str "SYNTAX") (a.synt.map Render.synt) ++
    (flag (str "SINGLE-VALUE") a.singleValue ++ (flag (str "COLLECTIVE") a.collective ++ (flag (str "NO-USER-MODIFICATION") a.noUserMod ++ (part (str "USAGE") a.usage ++
    [' ', ')'])))))))))))))

theorem optAll_some {α : Type} {p : α → Bool} {o : Option α} (h : optAll p o = true) (a : α) (e : o = some a) : p a = true := by rw [e] at h; exact h

theorem oidPart (key : Str) (o : Option Str) (h : optAll okOid o = true) : Rfc4512.part codeLex key (fun x => exactly x (Rfc4512.oid codeLex)) o (part key o) := by
  have := part_of key (fun x => exactly x (Rfc4512.oid codeLex)) id o (fun a e => ⟨rfl, oid_of (optAll_some h a e)⟩)
  simpa using this

theorem AT.text_says (a : AT) (h : a.ok = true) : Rfc4512.attributeType codeLex a.says a.text := by
  simp only [AT.ok, Bool.and_eq_true] at h
  obtain ⟨⟨⟨⟨⟨⟨⟨⟨h1, h2⟩, h3⟩, h4⟩, h5⟩, h6⟩, h7⟩, h8⟩, h9⟩ := h
  have d : Rfc4512.part codeLex (str "DESC") (fun _ => qdstring) (if a.says.hasDesc then some () else none) (part (str "DESC") (a.desc.map quoted)) := by
    cases e : a.desc with
    | none => simp only [AT.says, e]; rfl
    | some v =>
      simp only [AT.says, e]
      exact part_of (str "DESC") (fun _ : Unit => qdstring) (fun _ => quoted v) (some ()) (fun _ _ => ⟨['\''], _, rfl, rfl, v, ['\''], rfl, desc_of (optAll_some h3 v e), rfl⟩)
  have s : Rfc4512.part codeLex (str "SYNTAX") (noidlen codeLex) a.says.syntaxLen (part (str "SYNTAX") (a.synt.map Render.synt)) := by
    cases e : a.synt with
    | none => simp only [AT.says, e]; rfl
    | some p =>
      obtain ⟨o, n⟩ := p
      have hp := optAll_some h8 _ e
      simp only [Bool.and_eq_true] at hp
      simp only [AT.says, e]
      cases n with
      | none => exact part_of (str "SYNTAX") (noidlen codeLex) (fun _ => o) (some (o, none)) (by rintro _ e'; cases e'; exact ⟨rfl, noid_of hp.1⟩)
      | some n =>
        have hn : okNum n = true := hp.2
        simp only [okNum, Bool.and_eq_true, Bool.not_eq_true', List.isEmpty_eq_false_iff, List.all_eq_true] at hn
        exact part_of (str "SYNTAX") (noidlen codeLex) (fun _ => o ++ ('{' :: (n ++ ['}']))) (some (o, some (decimal n))) (by
          rintro _ e'; cases e'
          exact ⟨o, _, rfl, ⟨rfl, noid_of hp.1⟩, ['{'], _, rfl, rfl, n, ['}'], rfl, ⟨num_of hn.1 hn.2, rfl⟩, rfl⟩)
  have u : Rfc4512.part codeLex (str "USAGE") (fun u => exactly u (oneOf usages)) a.says.usage (part (str "USAGE") a.usage) := by
    have := part_of (str "USAGE") (fun u => exactly u (oneOf usages)) id a.usage (fun v e => ⟨rfl, by simpa [oneOf] using optAll_some h9 v e⟩)
    simpa [AT.says] using this
  exact ⟨['('], _, rfl, rfl, [' '], _, rfl, wspc, a.oid, _, rfl, ⟨rfl, noid_of h1⟩, _, _, rfl, names_of a.names (fun n hn => by simpa using List.all_eq_true.1 h2 n hn), _, _, rfl, d,
    _, _, rfl, flag_of _ _, _, _, rfl, oidPart _ _ h4, _, _, rfl, oidPart _ _ h5, _, _, rfl, oidPart _ _ h6, _, _, rfl, oidPart _ _ h7, _, _, rfl, s,
    _, _, rfl, flag_of _ _, _, _, rfl, flag_of _ _, _, _, rfl, flag_of _ _, _, _, rfl, u, [], _, rfl, .inl rfl, [' '], [')'], rfl, wspc, rfl⟩

/-- an object class description with the text of `DESC` -/
structure OC where
  oid : Str
  names : List Str
  desc : Option Str
  obsolete : Bool
  sups : List Str
  kind : Option Str
  must : List Str
  may : List Str

def OC.says (a : OC) : Rfc4512.ObjectClass := ⟨a.oid, a.names, a.desc.isSome, a.obsolete, a.sups, a.kind, a.must, a.may⟩

def OC.ok (a : OC) : Bool :=
  okNumericoid a.oid && a.names.all okKey && optAll okDesc a.desc && a.sups.all okOid && optAll (fun u => kinds.contains u) a.kind && a.must.all okOid && a.may.all okOid

def choice : Option Str → Str
  | none => []
  | some k => ' ' :: k

def OC.text (a : OC) : Str :=
  '(' :: ' ' :: (a.oid ++ (part (str "NAME") (Render.names a.names) ++ (part (str "DESC") (a.desc.map quoted) ++ (flag (str "OBSOLETE") a.obsolete ++
    (part (str "SUP") (Render.oids a.sups) ++ (choice a.kind ++ (part (str "MUST") (Render.oids a.must) ++ (part (str "MAY") (Render.oids a.may) ++ [' ', ')']))))))))

theorem OC.text_says (a : OC) (h : a.ok = true) : Rfc4512.objectClass codeLex a.says a.text := by
  simp only [OC.ok, Bool.and_eq_true] at h
  obtain ⟨⟨⟨⟨⟨⟨h1, h2⟩, h3⟩, h4⟩, h5⟩, h6⟩, h7⟩ := h
  have d : Rfc4512.part codeLex (str "DESC") (fun _ => qdstring) (if a.says.hasDesc then some () else none) (part (str "DESC") (a.desc.map quoted)) := by
    cases e : a.desc with
    | none => simp only [OC.says, e]; rfl
    | some v =>
      simp only [OC.says, e]
      exact part_of (str "DESC") (fun _ : Unit => qdstring) (fun _ => quoted v) (some ()) (fun _ _ => ⟨['\''], _, rfl, rfl, v, ['\''], rfl, desc_of (optAll_some h3 v e), rfl⟩)
  have k : Rfc4512.choice codeLex kinds a.says.kind (choice a.kind) := by
    cases e : a.kind with
    | none => simp only [OC.says, e]; rfl
    | some v => simp only [OC.says, e]; exact ⟨[' '], v, rfl, spc, rfl, by simpa [oneOf] using optAll_some h5 v e⟩
  exact ⟨['('], _, rfl, rfl, [' '], _, rfl, wspc, a.oid, _, rfl, ⟨rfl, noid_of h1⟩, _, _, rfl, names_of a.names (fun n hn => by simpa using List.all_eq_true.1 h2 n hn), _, _, rfl, d,
    _, _, rfl, flag_of _ _, _, _, rfl, oids_of _ _ (fun n hn => by simpa using List.all_eq_true.1 h4 n hn), _, _, rfl, k,
    _, _, rfl, oids_of _ _ (fun n hn => by simpa using List.all_eq_true.1 h6 n hn), _, _, rfl, oids_of _ _ (fun n hn => by simpa using List.all_eq_true.1 h7 n hn),
    [], _, rfl, .inl rfl, [' '], [')'], rfl, wspc, rfl⟩

end Laurelin.Render
