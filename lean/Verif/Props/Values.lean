import Verif.Props.BaseValues
import Verif.Spec.Values
/-!
# C74 the equality rules agree with what the values stand for
-/
set_option linter.unusedSectionVars false
set_option maxRecDepth 100000
namespace Laurelin.Props
open Laurelin Schema SchemaSpec Spec Spec.Abnf Spec.AttrSchema Laurelin.AttrSchema BaseRules

namespace ValP
open Spec.Values

def digit (c : Char) : Nat := c.toNat - '0'.toNat
def step (n : Nat) (c : Char) : Nat := 10 * n + (c.toNat - '0'.toNat)

theorem isDigit_range {c : Char} (h : '0' ≤ c ∧ c ≤ '9') : 48 ≤ c.toNat ∧ c.toNat ≤ 57 := by
  obtain ⟨h1, h2⟩ := h
  exact ⟨h1, h2⟩

theorem fold_inj : ∀ (s t : Str) (n m : Nat), s.length = t.length → (∀ c ∈ s, 48 ≤ c.toNat ∧ c.toNat ≤ 57) → (∀ c ∈ t, 48 ≤ c.toNat ∧ c.toNat ≤ 57) →
    s.foldl step n = t.foldl step m → n = m ∧ s = t
  | [], [], _, _, _, _, _, h => ⟨h, rfl⟩
  | c :: s, d :: t, n, m, hl, hs, ht, h => by
    have ih := fold_inj s t _ _ (by simpa using hl) (fun x hx => hs x (by simp [hx])) (fun x hx => ht x (by simp [hx])) h
    have h1 := hs c (by simp)
    have h2 := ht d (by simp)
    have h3 := ih.1
    simp only [step] at h3
    have e0 : ('0' : Char).toNat = 48 := rfl
    rw [e0] at h3
    refine ⟨by omega, ?_⟩
    rw [ih.2, Char.toNat_inj.1 (show c.toNat = d.toNat by omega)]

theorem fold_bounds : ∀ (s : Str) (n : Nat), (∀ c ∈ s, 48 ≤ c.toNat ∧ c.toNat ≤ 57) → n * 10 ^ s.length ≤ s.foldl step n ∧ s.foldl step n < (n + 1) * 10 ^ s.length
  | [], n, _ => by simp
  | c :: s, n, hs => by
    have ih := fold_bounds s (step n c) (fun x hx => hs x (by simp [hx]))
    have h1 := hs c (by simp)
    have e0 : ('0' : Char).toNat = 48 := rfl
    simp only [List.foldl_cons, List.length_cons, Nat.pow_succ]
    have hs1 : 10 * n ≤ step n c := by simp only [step]; omega
    have hs2 : step n c + 1 ≤ 10 * (n + 1) := by simp only [step, e0]; omega
    refine ⟨Nat.le_trans ?_ ih.1, Nat.lt_of_lt_of_le ih.2 ?_⟩
    · calc n * (10 ^ s.length * 10) = (10 * n) * 10 ^ s.length := by rw [← Nat.mul_assoc, Nat.mul_comm, ← Nat.mul_assoc]
        _ ≤ _ := Nat.mul_le_mul_right _ hs1
    · calc (step n c + 1) * 10 ^ s.length ≤ (10 * (n + 1)) * 10 ^ s.length := Nat.mul_le_mul_right _ hs2
        _ = _ := by rw [← Nat.mul_assoc, Nat.mul_comm (( n + 1) * 10 ^ s.length), ← Nat.mul_assoc]

/-- no leading zero -/
structure Canonical (s : Str) : Prop where
  digits : ∀ c ∈ s, 48 ≤ c.toNat ∧ c.toNat ≤ 57
  lead : s = ['0'] ∨ ∃ c t, s = c :: t ∧ 49 ≤ c.toNat

theorem natOf_pos {s : Str} (hs : Canonical s) (hne : s ≠ ['0']) : 10 ^ (s.length - 1) ≤ natOf s := by
  rcases hs.lead with h | ⟨c, t, rfl, hc⟩
  · exact absurd h hne
  · have := (fold_bounds t (step 0 c) (fun x hx => hs.digits x (by simp [hx]))).1
    have e0 : ('0' : Char).toNat = 48 := rfl
    have h1 : 1 ≤ step 0 c := by simp only [step, e0]; omega
    calc 10 ^ ((c :: t).length - 1) = 1 * 10 ^ t.length := by simp
      _ ≤ step 0 c * 10 ^ t.length := Nat.mul_le_mul_right _ h1
      _ ≤ _ := this

theorem natOf_lt {s : Str} (hs : Canonical s) : natOf s < 10 ^ s.length := by
  have := (fold_bounds s 0 hs.digits).2
  rw [Nat.zero_add, Nat.one_mul] at this
  exact this

theorem natOf_inj {s t : Str} (hs : Canonical s) (ht : Canonical t) (h : natOf s = natOf t) : s = t := by
  have key : ∀ {s : Str}, Canonical s → natOf s = 0 → s = ['0'] := by
    intro s hs h0
    by_cases h : s = ['0']
    · exact h
    · have := natOf_pos hs h
      have := Nat.pow_pos (n := s.length - 1) (show 0 < 10 by decide)
      omega
  by_cases h1 : s = ['0']
  · subst h1
    exact (key ht h.symm).symm
  · by_cases h2 : t = ['0']
    · subst h2
      exact key hs h
    · have hl : s.length = t.length := by
        have a1 := natOf_pos hs h1
        have a2 := natOf_lt hs
        have b1 := natOf_pos ht h2
        have b2 := natOf_lt ht
        have c1 : 10 ^ (s.length - 1) < 10 ^ t.length := by omega
        have c2 : 10 ^ (t.length - 1) < 10 ^ s.length := by omega
        have d1 := (Nat.pow_lt_pow_iff_right (by decide)).1 c1
        have d2 := (Nat.pow_lt_pow_iff_right (by decide)).1 c2
        have e1 : s ≠ [] := by rcases hs.lead with rfl | ⟨c, u, rfl, _⟩ <;> simp
        have e2 : t ≠ [] := by rcases ht.lead with rfl | ⟨c, u, rfl, _⟩ <;> simp
        have := List.length_pos_iff.2 e1
        have := List.length_pos_iff.2 e2
        omega
      exact (fold_inj s t 0 0 hl hs.digits ht.digits h).2

theorem digit_iff (c : Char) : c.isDigit = true ↔ 48 ≤ c.toNat ∧ c.toNat ≤ 57 := by
  simp only [Char.isDigit, Bool.and_eq_true, decide_eq_true_eq]
  exact Iff.rfl

theorem ldigit {s : Str} (h : Rfc4517.LDIGIT s) : ∃ c, s = [c] ∧ 49 ≤ c.toNat ∧ c.toNat ≤ 57 := by
  obtain ⟨c, rfl, hc⟩ := h
  simp only [Bool.and_eq_true, bne_iff_ne, digit_iff] at hc
  refine ⟨c, rfl, ?_, hc.1.2⟩
  have : c.toNat ≠ 48 := fun h => hc.2 (Char.toNat_inj.1 h)
  omega

theorem number_canonical {s : Str} (h : Rfc4517.number s) : Canonical s := by
  rcases h with ⟨c, rfl, hc⟩ | ⟨u, v, rfl, hu, hv⟩
  · have := (digit_iff c).1 hc
    refine ⟨by simpa using this, ?_⟩
    by_cases h0 : c.toNat = 48
    · left; rw [Char.toNat_inj.1 (show c.toNat = ('0' : Char).toNat from h0)]
    · exact .inr ⟨c, [], rfl, by omega⟩
  · obtain ⟨c, rfl, hc⟩ := ldigit hu
    have hv := ((Rx.many1_chr _ v).1 hv).2
    refine ⟨?_, .inr ⟨c, v, rfl, hc.1⟩⟩
    intro x hx
    rcases List.mem_cons.1 hx with rfl | hx
    · omega
    · exact (digit_iff x).1 (hv x hx)

theorem integer_cases {s : Str} (h : Rfc4517.integer s) : (Canonical s ∧ numberOf s = natOf s) ∨ ∃ t, s = '-' :: t ∧ Canonical t ∧ t ≠ ['0'] ∧ numberOf s = -(natOf t : Int) := by
  rcases h with ⟨u, v, rfl, rfl, w, x, rfl, hw, hx⟩ | h
  · obtain ⟨c, rfl, hc⟩ := ldigit hw
    have hx := (Rx.many_chr _ x).1 hx
    refine .inr ⟨c :: x, rfl, ⟨?_, .inr ⟨c, x, rfl, hc.1⟩⟩, ?_, rfl⟩
    · intro y hy
      rcases List.mem_cons.1 hy with rfl | hy
      · omega
      · exact (digit_iff y).1 (hx y hy)
    · intro e
      rw [(List.cons.inj e).1] at hc
      exact absurd hc.1 (by decide)
  · have hc := number_canonical h
    refine .inl ⟨hc, ?_⟩
    rcases hc.lead with rfl | ⟨c, t, rfl, h1⟩
    · rfl
    · unfold numberOf
      split
      · rename_i e
        rw [(List.cons.inj e).1] at h1
        exact absurd h1 (by decide)
      · rfl

theorem int_inj {a b : Str} (ha : Rfc4517.integer a) (hb : Rfc4517.integer b) : a = b ↔ numberOf a = numberOf b := by
  refine ⟨fun h => by rw [h], fun h => ?_⟩
  have pos : ∀ {t : Str}, Canonical t → t ≠ ['0'] → 0 < natOf t := fun h1 h2 => Nat.lt_of_lt_of_le (Nat.pow_pos (by decide)) (natOf_pos h1 h2)
  rcases integer_cases ha with ⟨ca, ea⟩ | ⟨t, rfl, ca, na, ea⟩ <;> rcases integer_cases hb with ⟨cb, eb⟩ | ⟨u, rfl, cb, nb, eb⟩
  · rw [ea, eb] at h
    exact natOf_inj ca cb (by omega)
  · have := pos cb nb
    omega
  · have := pos ca na
    omega
  · rw [ea, eb] at h
    rw [natOf_inj ca cb (by omega)]

theorem bits_inj {a b : Str} (ha : Rfc4517.bitString a) (hb : Rfc4517.bitString b) : a = b ↔ bits a = bits b := by
  refine ⟨fun h => by rw [h], fun h => ?_⟩
  obtain ⟨_, _, rfl, rfl, x, _, rfl, hx, _, _, rfl, rfl, rfl⟩ := ha
  obtain ⟨_, _, rfl, rfl, y, _, rfl, hy, _, _, rfl, rfl, rfl⟩ := hb
  have hx := (Rx.many_chr _ x).1 hx
  have hy := (Rx.many_chr _ y).1 hy
  have e : ∀ z : Str, (∀ c ∈ z, (c == '0' || c == '1') = true) → bits (['\''] ++ (z ++ (['\''] ++ ['B']))) = z.map (· == '1') := by
    intro z hz
    simp only [bits, List.filter_append, List.filter_eq_self.2 hz]
    simp [List.filter_cons]
  rw [e x hx, e y hy] at h
  have : ∀ x y : Str, (∀ c ∈ x, (c == '0' || c == '1') = true) → (∀ c ∈ y, (c == '0' || c == '1') = true) → x.map (· == '1') = y.map (· == '1') → x = y := by
    intro x
    induction x with
    | nil => intro y _ _ h; cases y with
      | nil => rfl
      | cons => cases h
    | cons c x ih =>
      intro y h1 h2 h
      cases y with
      | nil => cases h
      | cons d y =>
        simp only [List.map_cons, List.cons.injEq] at h
        rw [ih y (fun z hz => h1 z (by simp [hz])) (fun z hz => h2 z (by simp [hz])) h.2]
        have h3 := h1 c (by simp)
        have h4 := h2 d (by simp)
        simp only [Bool.or_eq_true, beq_iff_eq] at h3 h4
        have h5 := h.1
        rcases h3 with rfl | rfl <;> rcases h4 with rfl | rfl
        · rfl
        · exact absurd h5 (by decide)
        · exact absurd h5 (by decide)
        · rfl
  rw [this x y hx hy h]

theorem digits_eq {a : Str} (ha : Rfc4517.numericString a) : a.filter (fun c => c != ' ') = digits a := by
  have ha := ((Rx.many1_chr _ a).1 ha).2
  apply List.filter_congr
  intro c hc
  have := ha c hc
  simp only [Bool.or_eq_true, beq_iff_eq] at this
  rcases this with h | rfl
  · have : c ≠ ' ' := fun e => by rw [e] at h; cases h
    simp [h, this]
  · decide

theorem printable_of {p : Char → Bool} (hp : ∀ c, p c = true → 0x20 ≤ c.toNat ∧ c.toNat < 0x7f) {a : Str} (h : ∀ c ∈ a, p c = true) : Printable a := fun c hc => hp c (h c hc)

theorem numeric_plain {a : Str} (ha : Rfc4517.numericString a) : Printable a ∧ a.head? ≠ some 'F' := by
  have h := ((Rx.many1_chr _ a).1 ha).2
  refine ⟨printable_of ?_ h, ?_⟩
  · intro c hc
    simp only [Bool.or_eq_true, beq_iff_eq, digit_iff] at hc
    rcases hc with hc | rfl
    · omega
    · decide
  · intro e
    cases a with
    | nil => cases e
    | cons c a =>
      simp only [List.head?_cons, Option.some.injEq] at e
      have := h c (by simp)
      rw [e] at this
      cases this

theorem alnum_range {c : Char} (h : c.isAlphanum = true) : 48 ≤ c.toNat ∧ c.toNat ≤ 122 := by
  simp only [Char.isAlphanum, Char.isAlpha, Char.isUpper, Char.isLower, Bool.or_eq_true, Bool.and_eq_true, decide_eq_true_eq, digit_iff] at h
  rcases h with (⟨h1, h2⟩ | ⟨h1, h2⟩) | h
  · have h1 : 65 ≤ c.toNat := h1
    have h2 : c.toNat ≤ 90 := h2
    omega
  · have h1 : 97 ≤ c.toNat := h1
    have h2 : c.toNat ≤ 122 := h2
    omega
  · omega

theorem phone_plain {a : Str} (ha : Rfc4517.printableString a) : Printable a := by
  have h := ((Rx.many1_chr _ a).1 ha).2
  refine printable_of ?_ h
  intro c hc
  simp only [Rfc4517.printableCharacter, Bool.or_eq_true] at hc
  rcases hc with hc | hc
  · have := alnum_range hc
    omega
  · have : ∀ c ∈ str "'()+,-.=/:? ", 0x20 ≤ c.toNat ∧ c.toNat < 0x7f := by decide
    exact this c (by simpa using hc)

theorem lower_keeps (c : Char) (h : c.toNat < 128) : (!(c.toLower == ' ' || c.toLower == '-')) = (c != ' ' && c != '-') :=
  PrepP.ascii_ind (fun c => (!(c.toLower == ' ' || c.toLower == '-')) = (c != ' ' && c != '-')) (by decide) c h

theorem dialled_eq {a : Str} (ha : Printable a) : (a.map Char.toLower).filter (fun c => !(c == ' ' || c == '-')) = dialled a := by
  rw [List.filter_map, dialled]
  congr 1
  apply List.filter_congr
  intro c hc
  have := ha c hc
  exact lower_keeps c (by omega)

theorem true_iff {a b : Str} (ha : Rfc4517.boolean a) (hb : Rfc4517.boolean b) : a = b ↔ (a = str "TRUE" ↔ b = str "TRUE") := by
  have cases_ : ∀ {a : Str}, Rfc4517.boolean a → a = str "TRUE" ∨ a = str "FALSE" := by
    intro a h
    simpa [Rfc4517.boolean, oneOf] using h
  rcases cases_ ha with rfl | rfl <;> rcases cases_ hb with rfl | rfl <;> decide

end ValP

open ValP in
/-- **C74.** For the rules of the table and values in the language of their syntax by RFC 4517 the comparison succeeds, and says that two values are the same exactly when they stand for the same. -/
theorem c74_meanings (lower : Str → Str) (h : AsciiLower lower) (U : Uni) (hU : UniLaws U) : ∀ p ∈ Values.meanings, ∃ mr, getMatchingRule lower baseMatchingRules p.1 = .ok mr ∧
    ∀ a b, p.2.1 a → p.2.1 b → ∃ t, mr.eq.match_ U a b = .ok t ∧ (t = true ↔ p.2.2 a b) := by
  have rule : ∀ (r : MatchingRule), r ∈ baseMatchingRules → getMatchingRule lower baseMatchingRules r.name = .ok r := by
    intro r hr
    have key : ∀ q ∈ baseMatchingRules, BaseP.ascii q.name = true ∧ getMatchingRule BaseP.al baseMatchingRules q.name = .ok q := by decide +kernel
    rw [BaseP.rule_al h (key r hr).1]
    exact (key r hr).2
  have row : ∀ (p : Str × Language × (Str → Str → Prop)) (eq : EqRule), (∃ r ∈ baseMatchingRules, r.name = p.1 ∧ r.eq = eq) →
      (∀ a b, p.2.1 a → p.2.1 b → ∃ t, eq.match_ U a b = .ok t ∧ (t = true ↔ p.2.2 a b)) →
      ∃ mr, getMatchingRule lower baseMatchingRules p.1 = .ok mr ∧ ∀ a b, p.2.1 a → p.2.1 b → ∃ t, mr.eq.match_ U a b = .ok t ∧ (t = true ↔ p.2.2 a b) := by
    rintro p _ ⟨r, hr, hn, rfl⟩ hm
    exact ⟨r, by rw [← hn]; exact rule r hr, hm⟩
  have plainEq : ∀ (a b : Str), (EqRule.prep []).match_ U a b = .ok (decide (a = b)) := fun a b => rfl
  unfold Values.meanings
  refine List.forall_mem_cons.2 ⟨row _ (.prep []) (by decide +kernel) (fun a b ha hb => ⟨_, plainEq a b, by rw [decide_eq_true_eq]; exact bits_inj ha hb⟩), ?_⟩
  refine List.forall_mem_cons.2 ⟨row _ (.prep []) (by decide +kernel) (fun a b ha hb => ⟨_, plainEq a b, by rw [decide_eq_true_eq]; exact true_iff ha hb⟩), ?_⟩
  refine List.forall_mem_cons.2 ⟨row _ (.prep []) (by decide +kernel) (fun a b ha hb => ⟨_, plainEq a b, by rw [decide_eq_true_eq]; exact int_inj ha hb⟩), ?_⟩
  refine List.forall_mem_cons.2 ⟨row _ (.prep numericPrep) (by decide +kernel) (fun a b ha hb => ⟨_, (AttrS.match_prep U _ a b).trans (c36_ascii_numeric U hU a b (numeric_plain ha).1 (numeric_plain hb).1 (numeric_plain ha).2 (numeric_plain hb).2),
    by rw [decide_eq_true_eq, digits_eq ha, digits_eq hb]⟩), ?_⟩
  refine List.forall_mem_cons.2 ⟨row _ (.prep []) (by decide +kernel) (fun a b ha hb => ⟨_, plainEq a b, by rw [decide_eq_true_eq]⟩), ?_⟩
  refine List.forall_mem_cons.2 ⟨row _ (.prep telephonePrep) (by decide +kernel) (fun a b ha hb => ⟨_, (AttrS.match_prep U _ a b).trans (c36_ascii_telephone U hU a b (phone_plain ha) (phone_plain hb)),
    by rw [decide_eq_true_eq, dialled_eq (phone_plain ha), dialled_eq (phone_plain hb)]⟩), ?_⟩
  refine List.forall_mem_cons.2 ⟨row _ (.prep caseIgnorePrep) (by decide +kernel) (fun a b ha hb => ⟨_, (AttrS.match_prep U _ a b).trans (c36_ascii_case_ignore U hU a b ha.2 hb.2),
    by rw [decide_eq_true_eq]; exact Iff.rfl⟩), ?_⟩
  refine List.forall_mem_cons.2 ⟨row _ (.prep caseIgnorePrep) (by decide +kernel) (fun a b ha hb => ⟨_, (AttrS.match_prep U _ a b).trans (c36_ascii_case_ignore U hU a b ha.2 hb.2),
    by rw [decide_eq_true_eq]; exact Iff.rfl⟩), ?_⟩
  have exact_ : ∀ a b : Str, (Values.plain a ∧ a.head? ≠ some 'F') → (Values.plain b ∧ b.head? ≠ some 'F') → (EqRule.prep caseExactPrep).match_ U a b = .ok (decide (words a = words b)) := by
    intro a b ha hb
    rw [AttrS.match_prep, c36_ascii_case_exact U hU a b ha.1.2 hb.1.2, if_neg (fun h => h.elim ha.2 hb.2)]
  refine List.forall_mem_cons.2 ⟨row _ (.prep caseExactPrep) (by decide +kernel) (fun a b ha hb => ⟨_, exact_ a b ha hb, by rw [decide_eq_true_eq]⟩), ?_⟩
  refine List.forall_mem_cons.2 ⟨row _ (.prep caseExactPrep) (by decide +kernel) (fun a b ha hb => ⟨_, exact_ a b ha hb, by rw [decide_eq_true_eq]⟩), ?_⟩
  exact fun p hp => absurd hp (List.not_mem_nil)

/-- **C74 (`in`).** With the shipped schema: whether a value is in the values of an attribute whose equality rule is in the table, for valid values in the language of the RFC, is whether one of them stands for the same. -/
theorem c74_in (lower : Str → Str) (h : AsciiLower lower) (specs : List Str) (hs : specs.Perm (BaseSchema.attributeTypes ++ BaseSchema.netgroupTypes)) (r : Reg ATFields)
    (hr : load lower Reg.empty specs = (r, .ok ())) (U : Uni) (hU : UniLaws U) (depth : Nat) (hdepth : 3 ≤ depth) (p : Str × Language × (Str → Str → Prop)) (hp : p ∈ Values.meanings)
    (e : Str × List Str) (he : e ∈ BaseSchema.equality) (hep : e.1 = p.1)
    (n x : Str) (hn : n ∈ e.2) (hx : Casing lower n x) (f : Elem ATFields) (hf : r.find lower x = .ok (.elem f)) (l : List Str) (v : Str)
    (hv : ∀ w ∈ v :: l, p.2.1 w ∧ validate (shippedEnv lower U depth r) f.body w = .ok ()) :
    ∃ t, AttrValueList.contains (typeOf (shippedEnv lower U depth r)) x l v = .ok t ∧ (t = true ↔ ∃ y ∈ l, p.2.2 y v) := by
  obtain ⟨sch, hL, hmem⟩ := BaseP.loaded h hs hr U depth
  obtain ⟨mr, hm, key⟩ := c74_meanings lower h U hU p hp
  have hasc : BaseP.ascii p.1 = true := by rw [← hep]; exact (BaseP.equality_ok e he).1
  have hm' : getMatchingRule BaseP.al baseMatchingRules e.1 = .ok mr := by rw [hep, ← BaseP.rule_al h hasc]; exact hm
  have hrule := BaseP.hasRule (r := r) (U := U) h hdepth hmem he hn hx hm'
  have hprep : ∃ ms, mr.eq = .prep ms := by
    have k2 : ∀ k ∈ Values.meanings.map (·.1), ∀ q ∈ baseMatchingRules, q.name = k → ∃ ms, q.eq = .prep ms := by
      have : Values.meanings.map (·.1) = [str "bitStringMatch", str "booleanMatch", str "integerMatch", str "numericStringMatch", str "octetStringMatch", str "telephoneNumberMatch",
        str "caseIgnoreMatch", str "caseIgnoreIA5Match", str "caseExactMatch", str "caseExactIA5Match"] := rfl
      rw [this]
      have k3 : ∀ k ∈ [str "bitStringMatch", str "booleanMatch", str "integerMatch", str "numericStringMatch", str "octetStringMatch", str "telephoneNumberMatch",
        str "caseIgnoreMatch", str "caseIgnoreIA5Match", str "caseExactMatch", str "caseExactIA5Match"], ∀ q ∈ baseMatchingRules, q.name = k → q.eq ≠ .dn ∧ q.eq ≠ .time := by decide +kernel
      intro k hk q hq hqk
      obtain ⟨h1, h2⟩ := k3 k hk q hq hqk
      cases hqe : q.eq with
      | prep ms => exact ⟨ms, rfl⟩
      | dn => exact absurd hqe h1
      | time => exact absurd hqe h2
    obtain ⟨q, hq, hqm, hqn⟩ := (BaseP.equality_ok e he).2.1
    rw [hm'] at hqm
    cases hqm
    exact k2 p.1 (List.mem_map.2 ⟨p, hp, rfl⟩) mr hq (hqn.trans hep)
  obtain ⟨ms, hms⟩ := hprep
  rw [hms] at hrule key
  refine ⟨_, AttrS.contains_rule hL x _ hrule l v ?_, ?_⟩
  · intro w hw
    refine ⟨BaseP.valid hL hmem hf (hv w hw).2, ?_⟩
    obtain ⟨t, ht, _⟩ := key w w (hv w hw).1 (hv w hw).1
    rw [AttrS.match_prep] at ht
    show ∃ q, prepare U ms w = .ok q
    cases hpr : prepare U ms w with
    | ok q => exact ⟨q, rfl⟩
    | error e => simp [ruleMatch, hpr] at ht
  · rw [List.any_eq_true]
    have : ∀ y ∈ l, (matches_ (shippedEnv lower U depth r).U (.prep ms) y v = true ↔ p.2.2 y v) := by
      intro y hy
      obtain ⟨t, ht, hiff⟩ := key y v (hv y (by simp [hy])).1 (hv v (by simp)).1
      have e : matches_ (shippedEnv lower U depth r).U (.prep ms) y v = t := by
        unfold matches_
        rw [show (EqRule.prep ms).match_ (shippedEnv lower U depth r).U y v = .ok t from ht]
      rw [e]
      exact hiff
    constructor
    · rintro ⟨y, hy, hm⟩; exact ⟨y, hy, (this y hy).1 hm⟩
    · rintro ⟨y, hy, hm⟩; exact ⟨y, hy, (this y hy).2 hm⟩

namespace ValP
open Spec.Values

def tok (s : Str) : Str := s.flatMap (fun c => if c = '$' then [' ', '$', ' '] else [c])

theorem tok_plain : ∀ a : Str, '$' ∉ a → tok a = a
  | [], _ => rfl
  | c :: a, h => by
    have h1 : c ≠ '$' := fun e => h (by simp [e])
    have := tok_plain a (fun hm => h (by simp [hm]))
    simp only [tok, List.flatMap_cons, if_neg h1] at this ⊢
    rw [this]; rfl

theorem tok_append (a b : Str) : tok (a ++ b) = tok a ++ tok b := by simp [tok]

theorem split_cases : ∀ s : Str, ('$' ∉ s ∧ pySplit '$' s = [s]) ∨ ∃ a b, s = a ++ '$' :: b ∧ '$' ∉ a ∧ pySplit '$' s = a :: pySplit '$' b
  | [] => .inl ⟨by simp, rfl⟩
  | c :: s => by
    by_cases hc : c = '$'
    · subst hc
      exact .inr ⟨[], s, rfl, by simp, by simp [pySplit]⟩
    · rcases split_cases s with ⟨h1, h2⟩ | ⟨a, b, rfl, h1, h2⟩
      · exact .inl ⟨by simp [h1, Ne.symm hc], by simp [pySplit, hc, h2]⟩
      · exact .inr ⟨c :: a, b, rfl, by simp [h1, Ne.symm hc], by simp [pySplit, hc, h2]⟩

theorem pySplit_chars (d : Char) : ∀ (s w : Str), w ∈ pySplit d s → ∀ c ∈ w, c ∈ s
  | [], w, hw, c, hc => by
    rw [List.mem_singleton.1 (show w ∈ [[]] from hw)] at hc
    cases hc
  | x :: s, w, hw, c, hc => by
    have ih := pySplit_chars d s
    rw [pySplit] at hw
    split at hw
    · rcases List.mem_cons.1 hw with rfl | hw
      · cases hc
      · exact List.mem_cons_of_mem _ (ih w hw c hc)
    · split at hw
      · rw [List.mem_singleton.1 hw] at hc
        rw [List.mem_singleton.1 hc]; simp
      · rename_i h r e
        rcases List.mem_cons.1 hw with rfl | hw
        · rcases List.mem_cons.1 hc with rfl | hc
          · simp
          · exact List.mem_cons_of_mem _ (ih h (by rw [e]; simp) c hc)
        · exact List.mem_cons_of_mem _ (ih w (by rw [e]; simp [hw]) c hc)

theorem words_chars {s w : Str} (h : w ∈ words s) {c : Char} (hc : c ∈ w) : c ∈ s :=
  pySplit_chars ' ' s w (List.mem_filter.1 h).1 c hc

theorem words_sep (a b : Str) (ha : '$' ∉ a) : words (tok (a ++ '$' :: b)) = words a ++ ['$'] :: words (tok b) := by
  have : tok (a ++ '$' :: b) = a ++ ' ' :: ('$' :: ' ' :: tok b) := by
    rw [tok_append, tok_plain a ha]; rfl
  rw [this, PrepP.words_append_space, PrepP.words_cons_space _ _ (by decide)]

theorem split_at {α : Type} (d : α) : ∀ (x y : List α) (u v : List α), d ∉ x → d ∉ y → x ++ d :: u = y ++ d :: v → x = y ∧ u = v
  | [], [], u, v, _, _, h => ⟨rfl, (List.cons.inj h).2⟩
  | [], e :: y, u, v, _, h2, h => absurd (show d ∈ e :: y by rw [(List.cons.inj h).1]; simp) h2
  | e :: x, [], u, v, h1, _, h => absurd (show d ∈ e :: x by rw [← (List.cons.inj h).1]; simp) h1
  | e :: x, f :: y, u, v, h1, h2, h => by
    obtain ⟨h3, h4⟩ := List.cons.inj h
    obtain ⟨h5, h6⟩ := split_at d x y u v (fun hm => h1 (by simp [hm])) (fun hm => h2 (by simp [hm])) h4
    exact ⟨by rw [h3, h5], h6⟩

theorem lines_of : ∀ (n : Nat) (s t : Str), s.length ≤ n → words (tok s) = words (tok t) → (pySplit '$' s).map words = (pySplit '$' t).map words
  | n, s, t, hn, h => by
    have none_ : ∀ {a : Str}, '$' ∉ a → ['$'] ∉ words a := fun ha hm => ha (words_chars hm (by simp))
    rcases split_cases s with ⟨s1, s2⟩ | ⟨a, b, rfl, s1, s2⟩ <;> rcases split_cases t with ⟨t1, t2⟩ | ⟨c, d, rfl, t1, t2⟩
    · rw [s2, t2]
      rw [tok_plain s s1, tok_plain t t1] at h
      simp [h]
    · rw [tok_plain s s1, words_sep c d t1] at h
      exact absurd (show ['$'] ∈ words s by rw [h]; simp) (none_ s1)
    · rw [tok_plain t t1, words_sep a b s1] at h
      exact absurd (show ['$'] ∈ words t by rw [← h]; simp) (none_ t1)
    · rw [words_sep a b s1, words_sep c d t1] at h
      obtain ⟨h1, h2⟩ := split_at _ _ _ _ _ (none_ s1) (none_ t1) h
      cases n with
      | zero => simp at hn
      | succ n =>
        rw [s2, t2, List.map_cons, List.map_cons, h1, lines_of n b d (by simp at hn; omega) h2]

theorem tok_words {s t : Str} (h : words s = words t) : words (tok s) = words (tok t) := by
  have hf : ∀ a b, tok (a ++ ' ' :: b) = tok a ++ ' ' :: tok b := fun a b => by rw [tok_append]; rfl
  rw [PrepP.words_map tok rfl hf s, PrepP.words_map tok rfl hf t, h]

theorem split_lower : ∀ (s : Str), (∀ c ∈ s, c.toNat < 128) → (pySplit '$' s).map (·.map Char.toLower) = pySplit '$' (s.map Char.toLower)
  | [], _ => rfl
  | c :: s, h => by
    have ih := split_lower s (fun x hx => h x (by simp [hx]))
    have key : (decide (c.toLower = '$')) = decide (c = '$') := PrepP.ascii_ind (fun c => (decide (c.toLower = '$')) = decide (c = '$')) (by decide) c (h c (by simp))
    have key : c.toLower = '$' ↔ c = '$' := by simpa using key
    rw [List.map_cons, pySplit, pySplit]
    by_cases hc : c = '$'
    · rw [if_pos hc, if_pos (key.2 hc), List.map_cons, ih]; rfl
    · rw [if_neg hc, if_neg (fun e => hc (key.1 e)), ← ih]
      cases pySplit '$' s <;> rfl

end ValP

/-- **C74 (postal addresses).** `caseIgnoreListMatch` on printable ASCII finds only addresses that are the same line by line. -/
theorem c74_list_sound (U : Uni) (hU : UniLaws U) (r : MatchingRule) (hr : r ∈ baseMatchingRules) (hn : r.name = str "caseIgnoreListMatch") (a b : Str) (ha : Values.plain a) (hb : Values.plain b)
    (hm : r.eq.match_ U a b = .ok true) : Values.sameLines a b := by
  have key : ∀ q ∈ baseMatchingRules, q.name = str "caseIgnoreListMatch" → q.eq = .prep caseIgnorePrep := by decide +kernel
  rw [key r hr hn, AttrS.match_prep, c36_ascii_case_ignore U hU a b ha.2 hb.2, Except.ok.injEq, decide_eq_true_eq] at hm
  have := ValP.lines_of _ _ _ (Nat.le_refl _) (ValP.tok_words hm)
  unfold Values.sameLines Values.lines
  rw [← ValP.split_lower a (fun c hc => by have := ha.2 c hc; omega), ← ValP.split_lower b (fun c hc => by have := hb.2 c hc; omega)] at this
  rw [List.map_map, List.map_map] at this
  exact this

/-- It misses addresses that are the same: `Main Street $Town` and `main street$Town`. -/
theorem c74_list_counterexample (U : Uni) (hU : UniLaws U) : ∃ a b, Rfc4517.postalAddress a ∧ Rfc4517.postalAddress b ∧ Values.sameLines a b ∧
    ∃ r ∈ baseMatchingRules, r.name = str "caseIgnoreListMatch" ∧ r.eq.match_ U a b = .ok false := by
  have hline : ∀ s : Str, s ≠ [] → (∀ c ∈ s, (c != '\\' && c != '$') = true) → Rfc4517.postalLine s := by
    intro s h1 h2
    refine ⟨s.map (fun c => [c]), by simpa using h1, ?_, ?_⟩
    · clear h1 h2; induction s with
      | nil => rfl
      | cons c s ih => rw [List.map_cons, List.flatten_cons, ← ih]; rfl
    intro u hu
    obtain ⟨c, hc, rfl⟩ := List.mem_map.1 hu
    exact .inl ⟨c, rfl, h2 c hc⟩
  refine ⟨str "Main Street $Town", str "main street$Town", ?_, ?_, by unfold Values.sameLines; decide, ?_⟩
  · exact ⟨str "Main Street ", str "$Town", rfl, hline _ (by decide) (by decide), [str "$Town"], rfl, by
      intro u hu
      rw [List.mem_singleton.1 hu]
      exact ⟨['$'], str "Town", rfl, rfl, hline _ (by decide) (by decide)⟩⟩
  · exact ⟨str "main street", str "$Town", rfl, hline _ (by decide) (by decide), [str "$Town"], rfl, by
      intro u hu
      rw [List.mem_singleton.1 hu]
      exact ⟨['$'], str "Town", rfl, rfl, hline _ (by decide) (by decide)⟩⟩
  · have key : ∃ q ∈ baseMatchingRules, q.name = str "caseIgnoreListMatch" ∧ q.eq = .prep caseIgnorePrep := by decide +kernel
    obtain ⟨r, hr, hn, he⟩ := key
    refine ⟨r, hr, hn, ?_⟩
    rw [he, AttrS.match_prep, c36_ascii_case_ignore U hU _ _ (by unfold Printable; decide) (by unfold Printable; decide)]
    decide

/-- C74 does not hold for the other rules. All times are the same. Names of object identifiers in another casing, or a name and the OID it stands for, are not; nor are two spellings of a name with a UID; the three
rules for first components compare with the whole value, so that a description is never found by its OID. Distinguished names: see C38 and C75. -/
theorem c74_counterexamples (U : Uni) :
    (∃ r ∈ baseMatchingRules, r.name = str "generalizedTimeMatch" ∧ ∀ a b, Syntax.validateGT b = .ok () → r.eq.match_ U a b = .ok true) ∧
    (∀ r ∈ baseMatchingRules, r.name ∈ [str "objectIdentifierMatch", str "uniqueMemberMatch", str "objectIdentifierFirstComponentMatch", str "integerFirstComponentMatch", str "directoryStringFirstComponentMatch"] →
      ∀ a b, r.eq.match_ U a b = .ok (decide (a = b))) ∧
    Syntax.validateGT (str "2026010100Z") = .ok () ∧ Syntax.validateGT (str "19991231235959Z") = .ok () := by
  refine ⟨?_, ?_, by decide +kernel, by decide +kernel⟩
  · have key : ∃ q ∈ baseMatchingRules, q.name = str "generalizedTimeMatch" ∧ q.eq = .time := by decide +kernel
    obtain ⟨r, hr, hn, he⟩ := key
    refine ⟨r, hr, hn, ?_⟩
    intro a b hb
    rw [he]
    simp [EqRule.match_, EqRule.prepare, EqRule.doMatch, bind, Except.bind, hb]
  · intro r hr hn a b
    have key : ∀ q ∈ baseMatchingRules, q.name ∈ [str "objectIdentifierMatch", str "uniqueMemberMatch", str "objectIdentifierFirstComponentMatch", str "integerFirstComponentMatch", str "directoryStringFirstComponentMatch"] →
      q.eq = .prep [] := by decide +kernel
    rw [key r hr hn]
    rfl

/-! ### instances -/

example : Values.numberOf (str "-42") = -42 ∧ Values.bits (str "'101'B") = [true, false, true] ∧ Values.dialled (str "+1 555-Call") = str "+1555call" := by decide
example : Rfc4517.integer (str "-42") := .inl ⟨['-'], str "42", rfl, rfl, ['4'], ['2'], rfl, ⟨'4', rfl, by decide⟩, [['2']], rfl, by simp [Rfc4517.DIGIT, chr]⟩
example : Values.plain (str "John  Smith") ∧ Values.sameWords (str "John  Smith") (str "john smith") := by
  constructor
  · unfold Values.plain; decide
  · unfold Values.sameWords; decide
example : ∃ e ∈ BaseSchema.equality, e.1 = str "telephoneNumberMatch" ∧ e.2 ≠ [] := by decide +kernel

end Laurelin.Props
