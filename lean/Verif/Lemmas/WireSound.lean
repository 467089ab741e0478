import Verif.Lemmas.WireTyped
/-! Lemmas: what the typed decoder takes is an encoding, up to the forms of integers and booleans. -/
namespace Laurelin
namespace Asn1
open Codec Spec.Wire Spec.PagedS

theorem reserved_infix {a b : Bytes} (h : Plain a) (hi : ∃ x y, a = x ++ b ++ y) : Plain b := by
  obtain ⟨x, y, rfl⟩ := hi
  refine ⟨?_, fun p q e => ?_⟩
  · have := h.1
    simp only [List.length_append] at this
    omega
  · subst e
    exact h.2 (x ++ p) (q ++ y) (by simp [List.append_assoc])

theorem leading_zeros : ∀ (j : Nat) (l : Bytes) (k : Nat), Ber.beNat l < 256 ^ k → l.length = j + k → ∃ q, l = List.replicate j 0 ++ q := by
  intro j
  induction j with
  | zero => intro l k _ _; exact ⟨l, rfl⟩
  | succ j ih =>
    intro l k h hl
    cases l with
    | nil => simp at hl; omega
    | cons b l =>
      simp only [List.length_cons] at hl
      rw [beNat_cons] at h
      have hp : 256 ^ k ≤ 256 ^ l.length := Nat.pow_le_pow_right (by decide) (by omega)
      have hb : b.toNat = 0 := by
        rcases Nat.eq_zero_or_pos b.toNat with h0 | h0
        · exact h0
        · have := Nat.le_mul_of_pos_left (256 ^ l.length) h0
          omega
      have hb' : b = 0 := UInt8.toNat_inj.1 hb
      subst hb'
      obtain ⟨q, rfl⟩ := ih l k (by simpa using h) (by omega)
      exact ⟨q, rfl⟩

theorem length_sound {v r : Bytes} {n : Nat} (h : length v = .ok (n, r)) (hn : n ≤ 256 ^ 8) (hp : Plain v) : ∃ l, v = l ++ r ∧ IsLen n l := by
  cases v with
  | nil => cases h
  | cons b v =>
    rw [length] at h
    split at h
    · rename_i hb
      cases h
      exact ⟨[b], rfl, .short b hb⟩
    · split at h
      · cases h
      · split at h
        · cases h
        · rename_i h1 h2 h3
          simp only [Res.ok.injEq, Prod.mk.injEq] at h
          obtain ⟨hn', rfl⟩ := h
          have hlt : b.toNat < 256 := b.toNat_lt
          have hlen : (v.take (b.toNat - 128)).length = b.toNat - 128 := by
            rw [List.length_take]; omega
          refine ⟨b :: v.take (b.toNat - 128), by simp, ?_⟩
          have hu := Props.PagedP.beNat_unsigned (v.take (b.toNat - 128))
          rw [hn'] at hu
          refine .long b ?_ ?_ (by omega) hu
          · intro e
            rw [e] at hlen
            simp at hlen
            omega
          · rcases Nat.lt_or_ge (b.toNat - 128) 127 with h4 | h4
            · omega
            · exfalso
              have hb : b = 0xFF := UInt8.toNat_inj.1 (by show b.toNat = 255; omega)
              obtain ⟨q, hq⟩ := leading_zeros 118 (v.take (b.toNat - 128)) 9 (by rw [hn']; exact Nat.lt_of_le_of_lt hn (by decide)) (by rw [hlen]; omega)
              have hv := List.take_append_drop (b.toNat - 128) v
              rw [hq] at hv
              refine hp.2 [] (q ++ v.drop (b.toNat - 128)) ?_
              calc b :: v = 0xFF :: v := by rw [hb]
                _ = 0xFF :: (List.replicate 118 0 ++ q ++ v.drop (b.toNat - 128)) := by rw [hv]
                _ = [] ++ (0xFF :: List.replicate 118 0) ++ (q ++ v.drop (b.toNat - 128)) := by rw [List.append_assoc]; rfl

theorem header_sound {v c r : Bytes} {g : UInt8} (h : header v = .ok (g, c, r)) (hp : Plain v) : ∃ e, v = e ++ r ∧ IsTlv g c e := by
  cases v with
  | nil => cases h
  | cons t v =>
    rw [header] at h
    split at h
    · cases h
    · split at h
      · cases h
      · cases h
      · rename_i n s hl
        split at h
        · cases h
        · rename_i hlt
          simp only [Res.ok.injEq, Prod.mk.injEq] at h
          obtain ⟨rfl, rfl, rfl⟩ := h
          have hpv : Plain v := reserved_infix hp ⟨[t], [], by simp⟩
          have hsv : s.length ≤ v.length := by
            obtain ⟨l, e, _⟩ := length_inv hl
            rw [e]; simp
          obtain ⟨l, e, hlen⟩ := length_sound hl (by have := hpv.1; omega) hpv
          refine ⟨[t] ++ l ++ s.take n, ?_, l, ?_, rfl⟩
          · rw [e]; simp
          · rw [List.length_take, Nat.min_eq_left (by omega)]
            exact hlen

abbrev Sound (R : Alts) (t : Ty) (d : Bytes → Res (Val × Bytes)) : Prop := ∀ b v r, Plain b → d b = .ok (v, r) → ∃ e, b = e ++ r ∧ EncT loosely R t v e

theorem skip_sound (R : Alts) (n : Str) (k : Kind) (t : Ty) (cs : Comps) (rest : Res Items) (fs : Items) (b : Bytes)
    (hr : ∀ fs, rest = .ok fs → EncC loosely R cs fs b) (h : decodeComps.skip k rest = .ok fs) : EncC loosely R (.cons n k t cs) fs b := by
  cases k <;> cases rest <;> simp only [decodeComps.skip, Res.ok.injEq, reduceCtorEq] at h
  · subst h; exact ⟨rfl, hr _ rfl⟩
  · subst h; exact ⟨[], b, rfl, Or.inl ⟨rfl, rfl, rfl⟩, hr _ rfl⟩

theorem decodeComps_sound (R : Alts) (d : Ty → Bytes → Res (Val × Bytes)) (hd : ∀ t, t.named = true → Sound R t (d t)) :
    ∀ (cs : Comps) (b : Bytes) (fs : Items), Plain b → cs.named = true → decodeComps R d cs b = .ok fs → EncC loosely R cs fs b
  | .nil, b, fs, _, _, h => by
    cases b <;> simp only [decodeComps, Res.ok.injEq, reduceCtorEq] at h
    subst h; rfl
  | .cons n k t cs, [], fs, hp, hn, h => by
    simp only [Comps.named, Bool.and_eq_true] at hn
    exact skip_sound R n k t cs _ fs [] (fun fs h => decodeComps_sound R d hd cs [] fs hp hn.2 h) (by simpa only [decodeComps] using h)
  | .cons n k t cs, x :: b, fs, hp, hn, h => by
    simp only [Comps.named, Bool.and_eq_true] at hn
    simp only [decodeComps] at h
    split at h
    · split at h
      · rename_i v r hv
        split at h
        · rename_i fs' hfs
          simp only [Res.ok.injEq] at h
          subst h
          obtain ⟨e, he, hE⟩ := hd t hn.1 _ _ _ hp hv
          exact ⟨e, r, he, Or.inr ⟨fun _ _ => trivial, hE⟩, decodeComps_sound R d hd cs r fs' (reserved_infix hp ⟨e, [], by simp [he]⟩) hn.2 hfs⟩
        · cases h
        · cases h
      · cases h
      · cases h
    · exact skip_sound R n k t cs _ fs _ (fun fs h => decodeComps_sound R d hd cs _ fs hp hn.2 h) h

theorem decodeList_sound (R : Alts) (t : Ty) (d : Bytes → Res (Val × Bytes)) (hd : Sound R t d) :
    ∀ (n : Nat) (b : Bytes) (vs : Items), Plain b → decodeList d n b = .ok vs → EncL loosely R t vs b := by
  intro n
  induction n with
  | zero =>
    intro b vs _ h
    cases b <;> simp only [decodeList, Res.ok.injEq, reduceCtorEq] at h
    subst h; simp only [EncL]; rfl
  | succ n ih =>
    intro b vs hp h
    cases b with
    | nil => simp only [decodeList, Res.ok.injEq] at h; subst h; simp only [EncL]; rfl
    | cons x b =>
      simp only [decodeList] at h
      split at h
      · rename_i v r hv
        split at h
        · rename_i vs' hvs
          simp only [Res.ok.injEq] at h
          subst h
          obtain ⟨e, he, hE⟩ := hd _ _ _ hp hv
          exact ⟨e, r, he, hE, ih r vs' (reserved_infix hp ⟨e, [], by simp [he]⟩) hvs⟩
        · cases h
        · cases h
      · cases h
      · cases h

theorem decode_sound (R : Alts) (hR : R.named = true) : ∀ (f : Nat) (t : Ty), t.named = true → Sound R t (decode R f t) := by
  intro f
  induction f with
  | zero => intro t _ bs v r _ h; cases h
  | succ f ih =>
    intro t hn bs v r hp h
    have hchoice : ∀ (alts : Alts) (tag : UInt8), alts.named = true → (match alts.byTag tag with
          | none => Res.bad
          | some (name, t') =>
            match decode R f t' bs with
            | .ok (v, r) => .ok (Val.choice name v, r)
            | .underrun => .underrun
            | .bad => .bad) = .ok (v, r) → ∃ n w t' e, v = .choice n w ∧ alts.byName n = some t' ∧ bs = e ++ r ∧ EncT loosely R t' w e := by
      intro alts tag ha h
      split at h
      · cases h
      · rename_i name t' hb
        obtain ⟨h1, h2, _⟩ := byTag_name _ _ _ _ ha hb
        split at h
        · rename_i v' r' hd
          simp only [Res.ok.injEq, Prod.mk.injEq] at h
          obtain ⟨rfl, rfl⟩ := h
          obtain ⟨e, he, hf⟩ := ih t' h2 bs v' r' hp hd
          exact ⟨name, v', t', e, rfl, h1, he, hf⟩
        · cases h
        · cases h
    rw [decode] at h
    split at h
    · cases h
    · cases h
    · rename_i tag c rest hh
      obtain ⟨e0, he0, ht⟩ := header_sound hh hp
      have hpc : Plain c := by
        obtain ⟨l, _, rfl⟩ := ht
        exact reserved_infix hp ⟨[tag] ++ l, rest, he0⟩
      cases t with
      | octets g =>
        simp only at h
        split at h <;> simp only [Res.ok.injEq, Prod.mk.injEq, reduceCtorEq] at h
        rename_i hg
        obtain ⟨rfl, rfl⟩ := h
        exact ⟨e0, he0, g, rfl, c, rfl, hg ▸ ht⟩
      | int g rg =>
        simp only at h
        split at h <;> simp only [Res.ok.injEq, Prod.mk.injEq, reduceCtorEq] at h
        rename_i hr
        obtain ⟨rfl, rfl⟩ := h
        exact ⟨e0, he0, g, rg, rfl, hr.2, c, (integer_loosely _ _).2 rfl, hr.1 ▸ ht⟩
      | bool g =>
        simp only at h
        split at h <;> simp only [Res.ok.injEq, Prod.mk.injEq, reduceCtorEq] at h
        rename_i hg
        obtain ⟨rfl, rfl⟩ := h
        exact ⟨e0, he0, g, rfl, c, (boolean_loosely _ _).2 rfl, hg ▸ ht⟩
      | null g =>
        simp only at h
        split at h <;> simp only [Res.ok.injEq, Prod.mk.injEq, reduceCtorEq] at h
        rename_i hg
        obtain ⟨rfl, rfl⟩ := h
        exact ⟨e0, he0, g, rfl, c, hg.2, hg.1 ▸ ht⟩
      | seq g comps =>
        simp only at h
        split at h
        · rename_i hg
          split at h <;> simp only [Res.ok.injEq, Prod.mk.injEq, reduceCtorEq] at h
          rename_i fs hfs
          obtain ⟨rfl, rfl⟩ := h
          exact ⟨e0, he0, g, comps, rfl, c, decodeComps_sound R _ (fun t ht => ih t ht) comps c fs hpc hn hfs, hg ▸ ht⟩
        · cases h
      | list g e =>
        simp only at h
        split at h
        · rename_i hg
          split at h <;> simp only [Res.ok.injEq, Prod.mk.injEq, reduceCtorEq] at h
          rename_i vs hvs
          obtain ⟨rfl, rfl⟩ := h
          exact ⟨e0, he0, g, e, rfl, c, decodeList_sound R e _ (ih e hn) _ c vs hpc hvs, hg ▸ ht⟩
        · cases h
      | wrapped g name inner =>
        simp only at h
        split at h
        · rename_i hg
          split at h <;> simp only [Res.ok.injEq, Prod.mk.injEq, reduceCtorEq] at h
          rename_i v' hv
          obtain ⟨rfl, rfl⟩ := h
          obtain ⟨e, he, hE⟩ := ih inner hn c v' [] hpc hv
          rw [List.append_nil] at he
          subst he
          exact ⟨e0, he0, Or.inl ⟨g, inner, rfl, c, hE, hg ▸ ht⟩⟩
        · cases h
      | choice alts =>
        obtain ⟨n, w, t', e, rfl, h1, h2, h3⟩ := hchoice alts tag hn h
        exact ⟨e, h2, Or.inr ⟨alts, t', rfl, h1, h3⟩⟩
      | self =>
        obtain ⟨n, w, t', e, rfl, h1, h2, h3⟩ := hchoice R tag hR h
        exact ⟨e, h2, Or.inr ⟨R, t', rfl, h1, h3⟩⟩

end Asn1
end Laurelin
