import Verif.Model.TransLdif
import Verif.Spec.ModLdif
import Verif.Props.LdifRead
import Verif.Props.Transaction
/-!
C86: the LDIF a transaction shows is the modification it will make.
-/
namespace Laurelin.Props
open Laurelin Laurelin.Ldif Laurelin.TransLdif Laurelin.Spec Laurelin.Spec.Ldif Laurelin.Spec.ModLdif

namespace TransLdifP

/-- the lines of one change -/
def linesOf (m : Mod LVal) : List Str :=
  (opName m.op ++ str ": " ++ m.attr) :: ((named m.vals).map (fun v => m.attr ++ str ": " ++ shown v) ++ [str "-"])

def allLines (dn : Str) (ms : List (Mod LVal)) : List Str :=
  (str "dn: " ++ dn) :: str "changetype: modify" :: (ms.map linesOf).flatten

def ended (ls : List Str) : Str := ls.flatMap (fun l => l ++ ['\n'])

theorem opText_eq (o : ModOp) : opText o = opName o := by cases o <;> rfl

theorem modText_eq (m : Mod LVal) (h : m.vals ≠ .deleteAll) : modText m = .ok (ended (linesOf m)) := by
  obtain ⟨op, attr, vals⟩ := m
  cases vals with
  | deleteAll => exact absurd rfl h
  | list l =>
    simp only [modText, Vals.iter, linesOf, named, ended, opText_eq, List.flatMap_cons, List.flatMap_append, List.flatMap_nil,
      List.flatMap_map, List.append_nil]
    simp only [List.append_assoc]
    rfl

theorem modTexts_eq (ms : List (Mod LVal)) (h : ∀ m ∈ ms, m.vals ≠ .deleteAll) (acc : Str) :
    modTexts acc ms = .ok (acc ++ ended (ms.map linesOf).flatten) := by
  induction ms generalizing acc with
  | nil => simp [modTexts, ended]
  | cons m ms ih =>
    rw [modTexts, modText_eq m (h m (by simp))]
    simp only
    rw [ih (fun x hx => h x (by simp [hx]))]
    simp [ended]

theorem format_eq (dn : Str) (ms : List (Mod LVal)) (h : ∀ m ∈ ms, m.vals ≠ .deleteAll) :
    formatModLdif dn ms = .ok (ended (allLines dn ms)) := by
  rw [formatModLdif, modTexts_eq ms h]
  simp only [allLines, ended, List.flatMap_cons]
  congr 1
  simp only [List.append_assoc]
  rfl

theorem modTexts_error (ms : List (Mod LVal)) (acc : Str) (h : ∃ m ∈ ms, m.vals = .deleteAll) :
    modTexts acc ms = .error .typeError := by
  induction ms generalizing acc with
  | nil => simp at h
  | cons m ms ih =>
    rw [modTexts]
    by_cases hm : m.vals = .deleteAll
    · simp [modText, hm, Vals.iter]
    · rw [modText_eq m hm]
      simp only
      refine ih _ ?_
      obtain ⟨x, hx, he⟩ := h
      rcases List.mem_cons.1 hx with rfl | hx
      · exact absurd he hm
      · exact ⟨x, hx, he⟩

theorem join_ended (ls : List Str) (h : ls ≠ []) : pyJoin ['\n'] ls ++ ['\n'] = ended ls := by
  induction ls with
  | nil => exact absurd rfl h
  | cons l ls ih =>
    cases ls with
    | nil => simp [pyJoin, ended]
    | cons l2 ls =>
      have := ih (by simp)
      rw [pyJoin, List.append_assoc, List.append_assoc, this]
      simp [ended]

theorem logical_ended (ls : List Str) (h : ∀ l ∈ ls, '\n' ∉ l ∧ l.head? ≠ some ' ') :
    joinLines (pySplit '\n' (ended ls)) = ([], ls ++ [[]]) := by
  induction ls with
  | nil => rfl
  | cons l ls ih =>
    obtain ⟨h1, h2⟩ := h l (by simp)
    have e : ended (l :: ls) = l ++ '\n' :: ended ls := by simp [ended]
    rw [e, LdifP.split_lines, split_none _ _ h1, List.singleton_append, LdifP.joinLines_start _ h2,
      ih (fun x hx => h x (by simp [hx]))]
    simp

theorem bytesRepr_longer (b : Bytes) : b.length < (Codec.utf8Enc (bytesRepr b)).length := by
  have hpos : ∀ c : Char, 1 ≤ (Codec.utf8Enc [c]).length := by
    intro c
    rcases h : Codec.utf8Enc [c] with _ | ⟨x, t⟩
    · exact absurd (Codec.utf8_injective [c] [] (by rw [h]; rfl)) (by simp)
    · simp
  have hlen : ∀ s : Str, s.length ≤ (Codec.utf8Enc s).length := by
    intro s
    induction s with
    | nil => simp
    | cons c s ih =>
      have : Codec.utf8Enc (c :: s) = Codec.utf8Enc [c] ++ Codec.utf8Enc s := by simp [Codec.utf8Enc]
      have h2 := hpos c
      rw [this, List.length_append, List.length_cons]
      omega
  have hoct : ∀ q x, 1 ≤ (reprOctet q x).length := by
    intro q x
    unfold reprOctet
    simp only
    repeat' split
    all_goals first | decide | simp
  have hb : ∀ (q : Char) (l : Bytes), l.length ≤ (l.flatMap (reprOctet q)).length := by
    intro q l
    induction l with
    | nil => simp
    | cons x l ih => have := hoct q x; simp only [List.flatMap_cons, List.length_append, List.length_cons]; omega
  refine Nat.lt_of_lt_of_le ?_ (hlen _)
  unfold bytesRepr
  simp only [List.length_cons, List.length_append, List.length_nil]
  have := hb (if (39 : UInt8) ∈ b ∧ ¬ (34 : UInt8) ∈ b then '"' else '\'') b
  omega

theorem cut : ∀ (a b x y : Str), ':' ∉ a → ':' ∉ b → a ++ ':' :: x = b ++ ':' :: y → x = y := by
  intro a
  induction a with
  | nil =>
    intro b x y _ hb e
    cases b with
    | nil => simpa using e
    | cons c b => simp only [List.nil_append, List.cons_append, List.cons.injEq] at e; exact absurd (by simp [← e.1]) hb
  | cons c a ih =>
    intro b x y h1 h2 e
    cases b with
    | nil => simp only [List.nil_append, List.cons_append, List.cons.injEq] at e; exact absurd (by simp [e.1]) h1
    | cons d b =>
      simp only [List.cons_append, List.cons.injEq] at e
      exact ih b x y (fun h => h1 (by simp [h])) (fun h => h2 (by simp [h])) e.2

end TransLdifP

/-- **C86.** What the line of a text value says: read by RFC 2849 it gives the value exactly when the value is a SAFE-STRING. -/
theorem c86_line_iff (attr s : Str) (ha : ':' ∉ attr) :
    Reads (attr ++ str ": " ++ shown (.text s)) attr (octets (.text s)) ↔ SafeString s := by
  constructor
  · intro h
    cases h with
    | clear fill t hf hs hl hv =>
      have := Codec.utf8_injective _ _ hv
      exact this ▸ hs
    | base64 fill hf hl =>
      have h1 : attr ++ str ": " ++ shown (.text s) = attr ++ ':' :: (' ' :: s) := by
        simp only [shown, List.append_assoc]; rfl
      rw [h1] at hl
      have := TransLdifP.cut _ _ _ _ ha ha hl
      simp at this
  · intro h
    exact .clear [' '] s (by simp) h (by simp only [shown, List.append_assoc]; rfl) rfl

/-- **C86, finding.** The line of a binary value never reads as that value: the text is Python's notation `b'…'` for it. -/
theorem c86_binary_never (attr : Str) (b : Bytes) (ha : ':' ∉ attr) :
    ¬ Reads (attr ++ str ": " ++ shown (.bin b)) attr (octets (.bin b)) := by
  intro h
  have h1 : attr ++ str ": " ++ shown (.bin b) = attr ++ ':' :: (' ' :: bytesRepr b) := by
    simp only [shown, List.append_assoc]; rfl
  rw [h1] at h
  cases h with
  | clear fill t hf hs hl hv =>
    have e := TransLdifP.cut _ _ _ _ ha ha hl
    have e2 := LdifP.fill_unique [' '] fill (bytesRepr b) t (by simp) hf (by simp [bytesRepr]) (LdifP.safe_head t hs) e
    have hl := TransLdifP.bytesRepr_longer b
    rw [e2, ← hv] at hl
    exact absurd hl (Nat.lt_irrefl _)
  | base64 fill hf hl =>
    have := TransLdifP.cut _ _ _ _ ha ha hl
    simp at this

namespace TransLdifP

/-- the length of the first octet's notation -/
def wlen : Str → Nat
  | '\\' :: 'x' :: _ => 4
  | '\\' :: _ => 2
  | _ => 1

def hexVal (c : Char) : Nat := if c.toNat < 58 then c.toNat - 48 else c.toNat - 87

/-- the octet of a notation -/
def octetOf : Str → Nat
  | ['\\', 'x', h, l] => 16 * hexVal h + hexVal l
  | ['\\', 't'] => 9
  | ['\\', 'n'] => 10
  | ['\\', 'r'] => 13
  | ['\\', c] => c.toNat
  | [c] => c.toNat
  | _ => 0

theorem word_table (q : Char) (hq : q = '\'' ∨ q = '"') : ∀ n : Fin 256,
    wlen (reprOctet q (UInt8.ofNat n)) = (reprOctet q (UInt8.ofNat n)).length ∧
    (reprOctet q (UInt8.ofNat n) = ['\\'] → False) ∧ (reprOctet q (UInt8.ofNat n)).head? ≠ some q ∧ reprOctet q (UInt8.ofNat n) ≠ [] ∧
    octetOf (reprOctet q (UInt8.ofNat n)) = n ∧ ∀ c ∈ reprOctet q (UInt8.ofNat n), 32 ≤ c.toNat ∧ c.toNat ≤ 126 := by
  rcases hq with rfl | rfl
  · decide +kernel
  · decide +kernel

theorem word (q : Char) (hq : q = '\'' ∨ q = '"') (b : UInt8) :
    wlen (reprOctet q b) = (reprOctet q b).length ∧ (reprOctet q b = ['\\'] → False) ∧ (reprOctet q b).head? ≠ some q ∧ reprOctet q b ≠ [] ∧
    octetOf (reprOctet q b) = b.toNat ∧ ∀ c ∈ reprOctet q b, 32 ≤ c.toNat ∧ c.toNat ≤ 126 := by
  have h := word_table q hq ⟨b.toNat, b.toNat_lt⟩
  simp only [UInt8.ofNat_toNat] at h
  exact h

theorem wlen_append (w r : Str) (h : w ≠ []) (h1 : w ≠ ['\\']) : wlen (w ++ r) = wlen w := by
  match w, h, h1 with
  | [c], _, h1 =>
    have hc : c ≠ '\\' := fun e => h1 (by rw [e])
    simp only [List.cons_append, List.nil_append]
    rw [wlen.eq_def, wlen.eq_def]
    split
    · rename_i e; simp only [List.cons.injEq] at e; exact absurd e.1 hc
    · rename_i e; simp only [List.cons.injEq] at e; exact absurd e.1 hc
    · split
      · rename_i e; simp only [List.cons.injEq] at e; exact absurd e.1 hc
      · rename_i e; simp only [List.cons.injEq] at e; exact absurd e.1 hc
      · rfl
  | c :: d :: t, _, _ =>
    simp only [List.cons_append]
    by_cases hc : c = '\\'
    · subst hc
      by_cases hd : d = 'x'
      · subst hd; simp [wlen]
      · simp [wlen, hd]
    · simp [wlen, hc]

theorem octets_inj (q : Char) (hq : q = '\'' ∨ q = '"') (b b' : Bytes) (h : b.flatMap (reprOctet q) ++ [q] = b'.flatMap (reprOctet q) ++ [q]) : b = b' := by
  induction b generalizing b' with
  | nil =>
    cases b' with
    | nil => rfl
    | cons x l =>
      obtain ⟨-, -, w3, w4, -⟩ := word q hq x
      simp only [List.flatMap_nil, List.nil_append, List.flatMap_cons, List.append_assoc] at h
      cases hw : reprOctet q x with
      | nil => exact absurd hw w4
      | cons c t =>
        rw [hw] at h w3
        simp only [List.cons_append, List.cons.injEq] at h
        exact absurd (by rw [List.head?_cons, h.1]) w3
  | cons y l ih =>
    obtain ⟨v1, v2, v3, v4, v5, -⟩ := word q hq y
    cases b' with
    | nil =>
      simp only [List.flatMap_nil, List.nil_append, List.flatMap_cons, List.append_assoc] at h
      cases hw : reprOctet q y with
      | nil => exact absurd hw v4
      | cons c t =>
        rw [hw] at h v3
        simp only [List.cons_append, List.cons.injEq] at h
        exact absurd (by rw [List.head?_cons, h.1]) v3
    | cons x l' =>
      obtain ⟨w1, w2, w3, w4, w5, -⟩ := word q hq x
      simp only [List.flatMap_cons, List.append_assoc] at h
      have hl : (reprOctet q y).length = (reprOctet q x).length := by
        rw [← v1, ← w1, ← wlen_append _ (l.flatMap (reprOctet q) ++ [q]) v4 v2, ← wlen_append _ (l'.flatMap (reprOctet q) ++ [q]) w4 w2, h]
      obtain ⟨e1, e2⟩ := List.append_inj h hl
      rw [ih l' e2]
      rw [e1] at v5
      rw [UInt8.toNat_inj.1 (v5.symm.trans w5)]

end TransLdifP

/-- **C86.** A binary value is shown in one line of printable ASCII, and different values are shown differently. -/
theorem c86_binary_shown (b b' : Bytes) :
    (∀ c ∈ shown (.bin b), 32 ≤ c.toNat ∧ c.toNat ≤ 126) ∧ (shown (.bin b) = shown (.bin b') → b = b') := by
  have hq : ∀ b : Bytes, (if (39 : UInt8) ∈ b ∧ ¬ (34 : UInt8) ∈ b then '"' else '\'') = '\'' ∨ (if (39 : UInt8) ∈ b ∧ ¬ (34 : UInt8) ∈ b then '"' else '\'') = '"' := by
    intro b
    split
    · exact .inr rfl
    · exact .inl rfl
  simp only [shown, bytesRepr]
  constructor
  · generalize hqq : (if (39 : UInt8) ∈ b ∧ ¬ (34 : UInt8) ∈ b then '"' else '\'') = q
    have hq' := hq b
    rw [hqq] at hq'
    have hqr : 32 ≤ q.toNat ∧ q.toNat ≤ 126 := by rcases hq' with rfl | rfl <;> decide
    intro c hc
    rcases List.mem_cons.1 hc with rfl | hc
    · decide
    rcases List.mem_cons.1 hc with rfl | hc
    · exact hqr
    rcases List.mem_append.1 hc with hc | hc
    · obtain ⟨x, -, hx⟩ := List.mem_flatMap.1 hc
      exact (TransLdifP.word q hq' x).2.2.2.2.2 c hx
    · rw [List.mem_singleton.1 hc]; exact hqr
  · intro h
    simp only [List.cons.injEq, true_and] at h
    obtain ⟨h1, h2⟩ := h
    rw [← h1] at h2
    exact TransLdifP.octets_inj _ (hq b) b b' h2

/-- **C86.** When the DN and every staged value are SAFE-STRINGs, and no change says `DELETE_ALL`, the text, read by RFC 2849, describes
exactly the staged changes of the entry, in order. (Partial: see the findings below for all other values.) -/
theorem c86_describes_partial (dn : Str) (ms : List (Mod LVal)) (hd : SafeString dn) (hn : ∀ m ∈ ms, LineName m.attr)
    (hv : ∀ m ∈ ms, ∃ l, m.vals = .list l ∧ ∀ v ∈ l, ∃ s, v = .text s ∧ SafeString s) :
    ∃ text, formatModLdif dn ms = .ok text ∧ Describes text dn ms := by
  have hda : ∀ m ∈ ms, m.vals ≠ .deleteAll := by
    intro m hm e
    obtain ⟨l, h, -⟩ := hv m hm
    rw [e] at h; exact absurd h nofun
  refine ⟨_, TransLdifP.format_eq dn ms hda, TransLdifP.allLines dn ms, ?_, ?_⟩
  · rw [logical, physical, TransLdifP.logical_ended]
    intro l hl
    simp only [TransLdifP.allLines, List.mem_cons, List.mem_flatten, List.mem_map] at hl
    rcases hl with rfl | rfl | ⟨_, ⟨m, hm, rfl⟩, hl⟩
    · refine ⟨?_, by simp⟩
      intro h
      rcases List.mem_append.1 h with h | h
      · exact absurd h (by decide)
      · exact LdifP.safe_no_newline dn hd h
    · exact ⟨by decide, by decide⟩
    · obtain ⟨n1, n2, n3⟩ := hn m hm
      obtain ⟨vs, e, hvs⟩ := hv m hm
      simp only [TransLdifP.linesOf, List.mem_cons, List.mem_append, List.mem_map, List.not_mem_nil, or_false, e, named] at hl
      rcases hl with rfl | ⟨v, hv, rfl⟩ | rfl
      · constructor
        · intro h
          rcases List.mem_append.1 h with h | h
          · cases hop : m.op <;> rw [hop] at h <;> revert h <;> decide
          · exact n3 h
        · cases m.op <;> simp [opName]
      · obtain ⟨s, rfl, hs⟩ := hvs v hv
        constructor
        · intro h
          simp only [List.mem_append, shown] at h
          rcases h with (h | h) | h
          · exact n3 h
          · exact absurd h (by decide)
          · exact LdifP.safe_no_newline s hs h
        · cases ha : m.attr with
          | nil => exact absurd ha n1
          | cons c t => rw [ha] at n2; simpa using n2
      · exact ⟨by decide, by decide⟩
  · refine ⟨_, ms.map TransLdifP.linesOf, .clear [' '] dn (by simp) hd rfl rfl, ?_, rfl⟩
    clear hda
    induction ms with
    | nil => exact .nil
    | cons m ms ih =>
      refine .cons ⟨_, rfl, ?_⟩ (ih (fun x hx => hn x (by simp [hx])) (fun x hx => hv x (by simp [hx])))
      obtain ⟨vs, e, hvs⟩ := hv m (by simp)
      rw [e]
      simp only [named]
      clear e ih
      induction vs with
      | nil => exact .nil
      | cons v vs ih =>
        obtain ⟨s, rfl, hs⟩ := hvs v (by simp)
        refine .cons ?_ (ih (fun x hx => hvs x (by simp [hx])))
        exact .clear [' '] s (by simp) hs (by simp only [shown, List.append_assoc]; rfl) rfl

/-- **C86, finding.** As soon as one staged change deletes a whole attribute with `DELETE_ALL` — as `delete_attrs` with `DELETE_ALL` stages
it — there is no LDIF: the method raises `TypeError`. It raises in no other case. -/
theorem c86_delete_all (dn : Str) (ms : List (Mod LVal)) :
    formatModLdif dn ms = .error .typeError ↔ ∃ m ∈ ms, m.vals = .deleteAll := by
  constructor
  · intro h
    refine Classical.byContradiction fun hn => ?_
    rw [TransLdifP.format_eq dn ms (fun m hm e => hn ⟨m, hm, e⟩)] at h
    exact absurd h nofun
  · intro h
    exact TransLdifP.modTexts_error ms _ h

/-- **C86, finding.** A newline in a staged value is written as it is: the text of a single change whose value goes on after a newline is
the text of two changes, whatever the second change is. -/
theorem c86_injection (dn attr v attr2 : Str) (op op2 : ModOp) (more : List Str) (ms : List (Mod LVal)) :
    formatModLdif dn (⟨op, attr, .list [.text (v ++ ['\n'] ++ str "-\n" ++ opText op2 ++ str ": " ++ attr2 ++
        more.flatMap (fun x => ['\n'] ++ attr2 ++ str ": " ++ x))]⟩ :: ms) =
      formatModLdif dn (⟨op, attr, .list [.text v]⟩ :: ⟨op2, attr2, .list (more.map .text)⟩ :: ms) := by
  have hsh : ∀ l : List Str, ((['\n'] : Str) ++ l.flatMap (fun x => attr2 ++ str ": " ++ x ++ ['\n'])) =
      l.flatMap (fun x => ['\n'] ++ attr2 ++ str ": " ++ x) ++ ['\n'] := by
    intro l
    induction l with
    | nil => rfl
    | cons x l ih =>
      rw [List.flatMap_cons, List.flatMap_cons]
      simp only [List.append_assoc] at ih ⊢
      rw [← ih]
  have e1 : ∀ (acc : Str), modTexts acc (⟨op, attr, .list [.text v]⟩ :: ⟨op2, attr2, .list (more.map .text)⟩ :: ms) =
      modTexts (acc ++ (opText op ++ str ": " ++ attr ++ ['\n'] ++ (attr ++ str ": " ++ v ++ ['\n']) ++ str "-\n" ++
        (opText op2 ++ str ": " ++ attr2 ++ (['\n'] ++ more.flatMap (fun x => attr2 ++ str ": " ++ x ++ ['\n'])) ++ str "-\n"))) ms := by
    intro acc
    simp only [modTexts, modText, Vals.iter, shown, List.flatMap_cons, List.flatMap_nil, List.append_nil, List.append_assoc,
      List.flatMap_map]
  rw [formatModLdif, formatModLdif, e1, hsh]
  simp only [modTexts, modText, Vals.iter, shown, List.flatMap_cons, List.flatMap_nil, List.append_nil, List.append_assoc]

/-- **C86.** Handing the text to `process_ldif` makes exactly one call, a modify of the same entry with the staged changes as they are.
(Partial: for values that `process_ldif` reads, see C44; `DELETE_ALL` cannot be written.) -/
theorem c86_read_back_partial {σ ρ : Type} (lenv : Env) (dn : Str) (ms : List (Mod LVal)) (hd : Plain dn)
    (hn : ∀ m ∈ ms, GoodName m.attr ∧ (m.op = .add → m.vals ≠ .list []))
    (hv : ∀ m ∈ ms, ∃ l, m.vals = .list l ∧ ∀ v ∈ l, ∃ s, v = .text s ∧ Plain s) :
    ∃ text, formatModLdif dn ms = .ok text ∧ ∀ (exec : σ → Op → σ × Except Err ρ) (st : σ),
      processLdif lenv exec st text = runOps exec st [.modify (.text dn) ms []] := by
  have hda : ∀ m ∈ ms, m.vals ≠ .deleteAll := by
    intro m hm e
    obtain ⟨l, h, -⟩ := hv m hm
    rw [e] at h; exact absurd h nofun
  -- the record
  have key : ∀ l : List (Mod LVal), (∀ m ∈ l, ∃ vs, m.vals = .list vs ∧ ∀ v ∈ vs, ∃ s, v = .text s ∧ Plain s) →
      ∃ specs : List ModSpec, l = specs.map (fun m => ⟨m.op, m.name, .list (m.vals.map (fun i => .text i.value))⟩) ∧
        l.map TransLdifP.linesOf = specs.map ModSpec.lines ∧
        ∀ m ∈ specs, ∀ i ∈ m.vals, Plain i.value ∧ i.b64 = false := by
    intro l hl
    induction l with
    | nil => exact ⟨[], rfl, rfl, by simp⟩
    | cons m l ih =>
      obtain ⟨specs, e1, e2, e3⟩ := ih (fun x hx => hl x (by simp [hx]))
      obtain ⟨vs, hvs, hp⟩ := hl m (by simp)
      have key2 : ∀ ws : List LVal, (∀ v ∈ ws, ∃ s, v = .text s ∧ Plain s) →
          ∃ items : List Item, ws = items.map (fun i => .text i.value) ∧ (∀ i ∈ items, Plain i.value ∧ i.b64 = false) := by
        intro ws hws
        induction ws with
        | nil => exact ⟨[], rfl, by simp⟩
        | cons w ws ih =>
          obtain ⟨items, a1, a2⟩ := ih (fun x hx => hws x (by simp [hx]))
          obtain ⟨s, rfl, hs⟩ := hws w (by simp)
          refine ⟨⟨s, false⟩ :: items, by rw [a1]; rfl, ?_⟩
          intro i hi
          rcases List.mem_cons.1 hi with rfl | hi
          · exact ⟨hs, rfl⟩
          · exact a2 i hi
      obtain ⟨items, a1, a2⟩ := key2 vs hp
      refine ⟨⟨m.op, m.attr, items⟩ :: specs, ?_, ?_, ?_⟩
      · obtain ⟨op, attr, vals⟩ := m
        simp only at hvs
        rw [List.map_cons, ← e1, ← a1, hvs]
      · rw [List.map_cons, List.map_cons, e2]
        congr 1
        simp only [TransLdifP.linesOf, ModSpec.lines, hvs, named, a1, List.map_map, List.cons_append, List.cons.injEq, true_and]
        congr 1
        refine List.map_congr_left fun i hi => ?_
        simp only [Function.comp, shown, Item.spec, (a2 i hi).2, Bool.false_eq_true, if_false, List.append_assoc]
        rfl
      · intro x hx
        rcases List.mem_cons.1 hx with rfl | hx
        · exact a2
        · exact e3 x hx
  obtain ⟨specs, e1, e2, e3⟩ := key ms hv
  have good : ∀ s, Plain s → Item.Good ⟨s, false⟩ := by
    rintro s ⟨h1, h2, h3, h4, h5⟩
    refine ⟨h2, h3, fun _ => ⟨h1, fun e => h5 (List.mem_of_mem_head? (by simpa using e)), h4, ?_⟩⟩
    intro a b e
    exact h5 (by rw [show s = a ++ ':' :: '<' :: b from e]; simp)
  let r : Record := ⟨⟨dn, false⟩, [], .modify specs⟩
  have hr : r.Good := by
    refine ⟨good dn hd, by simp [r], ?_⟩
    intro m hm
    have hmem : (⟨m.op, m.name, .list (m.vals.map (fun i => .text i.value))⟩ : Mod LVal) ∈ ms := by
      rw [e1]; exact List.mem_map.2 ⟨m, hm, rfl⟩
    obtain ⟨g1, g2⟩ := hn _ hmem
    refine ⟨g1, fun ho he => g2 ho (by simp [he]), fun i hi => ?_⟩
    obtain ⟨p1, p2⟩ := e3 m hm i hi
    have := good _ p1
    obtain ⟨iv, ib⟩ := i
    simp only at p2 this
    subst p2
    exact ⟨this, rfl, p1.2.2.2.2⟩
  have htext : formatModLdif dn ms = .ok (file false [(r, 1)]) := by
    rw [TransLdifP.format_eq dn ms hda]
    have : file false [(r, 1)] = pyJoin ['\n'] r.lines ++ ['\n'] := by simp [file, body]
    rw [this, TransLdifP.join_ended _ (by simp [Record.lines])]
    congr 2
    simp only [TransLdifP.allLines, Record.lines, r, List.map_nil, List.nil_append, Change.lines, e2, Item.spec,
      Bool.false_eq_true, if_false, List.flatMap_def]
    rfl
  obtain ⟨ops, hops, hrun⟩ := c44_applied_partial (σ := σ) (ρ := ρ) lenv false [(r, 1)] trivial (by simpa using hr) (by simp [r]) (.inr (by simp))
    (file false [(r, 1)]) (by
      generalize file false [(r, 1)] = t
      induction t with
      | nil => exact .nil
      | cons c t ih => exact .char c ih)
  refine ⟨_, htext, fun exec st => ?_⟩
  rw [hrun]
  congr 1
  cases ops with
  | nil => exact absurd hops nofun
  | cons op ops =>
    cases ops with
    | cons _ _ => exact absurd hops.2 nofun
    | nil =>
      have hm := hops.1
      cases op with
      | modify dn' ms' ctrls =>
        obtain ⟨m1, m2, m3⟩ := hm
        have : ctrls = [] := by
          cases ctrls with
          | nil => rfl
          | cons kv rest =>
            have := m2.2 kv.1
            simp [r, PDict.get?] at this
        rw [m1, m3, this, ← e1]
      | add _ _ _ => exact absurd hm nofun
      | delete _ _ => exact absurd hm nofun
      | modDn _ _ _ _ _ => exact absurd hm nofun

/-- a connection carrying out the calls of `process_ldif`, keeping what it has sent -/
def sending (env : ObjEnv LVal) (server : ModRequest LVal → Except Err Unit) (sent : List (ModRequest LVal)) :
    Op → List (ModRequest LVal) × Except Err Unit
  | .modify (.text dn) mods _ =>
    let r := ldapModify env.unbound env.validators env.opts env.ctrls server dn mods none
    (sent ++ r.sent, r.result)
  | _ => (sent, .error .typeError)

/-- **C86.** Processing the LDIF of a transaction on the same connection sends exactly the requests its commit would send (for validators that do
not look at the current attributes). -/
theorem c86_same_as_commit (lower : Str → Str) (typeOf : TypeOf LVal) (lenv : Env) (s : TState LVal) (t : Nat) (tr : Trans LVal)
    (ht : s.trans[t]? = some tr) (hp : tr.parent = none) (env : ObjEnv LVal) (server : ModRequest LVal → Except Err Unit)
    (hval : runValidation env.validators (env.dn, tr.modlist, none) = runValidation env.validators (env.dn, tr.modlist, some s.orig))
    (hd : Plain env.dn) (hn : ∀ m ∈ tr.modlist, GoodName m.attr ∧ (m.op = .add → m.vals ≠ .list []))
    (hv : ∀ m ∈ tr.modlist, ∃ l, m.vals = .list l ∧ ∀ v ∈ l, ∃ s, v = .text s ∧ Plain s) :
    ∃ text, formatModLdif env.dn tr.modlist = .ok text ∧
      (processLdif lenv (sending env server) s.sent text).1.2 = (s.step lower typeOf (.commit t env server)).1.sent := by
  obtain ⟨text, h1, h2⟩ := c86_read_back_partial (σ := List (ModRequest LVal)) (ρ := Unit) lenv env.dn tr.modlist hd hn hv
  refine ⟨text, h1, ?_⟩
  rw [h2]
  have hc := (c13_commit_is_one_modify lower typeOf s t tr ht hp env server).1
  rw [hc]
  have hsent : (env.modify lower typeOf server s.orig tr.modlist).2.sent =
      (ldapModify env.unbound env.validators env.opts env.ctrls server env.dn tr.modlist none).sent := by
    have h3 : ldapModify env.unbound env.validators env.opts env.ctrls server env.dn tr.modlist (some s.orig) =
        ldapModify env.unbound env.validators env.opts env.ctrls server env.dn tr.modlist none := by
      simp only [ldapModify, hval]
    simp only [ObjEnv.modify, objModify, h3]
    split <;> rfl
  rw [hsent]
  simp only [runOps, sending]
  generalize ldapModify env.unbound env.validators env.opts env.ctrls server env.dn tr.modlist none = r
  obtain ⟨a, b, c⟩ := r
  cases c <;> rfl

/-- the staged changes of the examples -/
def oneValue (v : LVal) : List (Mod LVal) := [⟨.replace, str "description", .list [v]⟩]

/-- what processing the shown text does -/
def processed (ms : List (Mod LVal)) : List Op × Except Err (List Unit) :=
  match formatModLdif (str "cn=a,o=b") ms with
  | .error e => ([], .error e)
  | .ok text => let r := processLdif noControls acceptAll () text; (r.1.1, r.2)

/-- **C86, findings.** One staged value is enough to make the processed text delete another entry; a colon makes it unreadable; white space
at the ends is lost; a binary value arrives as Python's notation for it; an empty value makes the reader fail; deleting a whole
attribute cannot be written. -/
theorem c86_counterexamples :
    processed (oneValue (.text (str "x\n-\n\ndn: cn=c,o=b\nchangetype: delete"))) =
      ([.modify (.text (str "cn=a,o=b")) [⟨.replace, str "description", .list [.text (str "x")]⟩] [], .delete (.text (str "cn=c,o=b")) []],
        .ok [(), ()]) ∧
    processed (oneValue (.text (str "http://x"))) = ([], .error .valueError) ∧
    processed (oneValue (.text (str " x "))) =
      ([.modify (.text (str "cn=a,o=b")) [⟨.replace, str "description", .list [.text (str "x")]⟩] []], .ok [()]) ∧
    processed (oneValue (.bin [0, 255, 39])) =
      ([.modify (.text (str "cn=a,o=b")) [⟨.replace, str "description", .list [.text (str "b\"\\x00\\xff'\"")]⟩] []], .ok [()]) ∧
    processed (oneValue (.text [])) = ([], .error .indexError) ∧
    processed [⟨.delete, str "sn", .deleteAll⟩] = ([], .error .typeError) := by
  refine ⟨?_, ?_, ?_, ?_, ?_, ?_⟩ <;> decide +kernel

/-! ### The hypotheses are met -/

/-- a transaction of three changes -/
def threeChanges : List (Mod LVal) :=
  [⟨.add, str "memberUid", .list [.text (str "foo"), .text (str "bar")]⟩, ⟨.delete, str "sn", .list []⟩,
   ⟨.replace, str "mail", .list [.text (str "a@b")]⟩]

theorem threeChanges_plain : ∀ m ∈ threeChanges, ∃ l, m.vals = .list l ∧ ∀ v ∈ l, ∃ s, v = .text s ∧ Plain s := by
  have hpl : ∀ s : Str, s ∈ [str "foo", str "bar", str "a@b"] → Plain s := by
    intro s hs
    simp only [List.mem_cons, List.not_mem_nil, or_false] at hs
    rcases hs with rfl | rfl | rfl <;> refine ⟨by decide, ?_, ?_, by decide, by decide⟩ <;> simp [isSpace] <;> decide
  intro m hm
  simp only [threeChanges, List.mem_cons, List.not_mem_nil, or_false] at hm
  rcases hm with rfl | rfl | rfl
  · refine ⟨_, rfl, fun v hv => ?_⟩
    simp only [List.mem_cons, List.not_mem_nil, or_false] at hv
    rcases hv with rfl | rfl
    · exact ⟨_, rfl, hpl _ (by decide)⟩
    · exact ⟨_, rfl, hpl _ (by decide)⟩
  · exact ⟨_, rfl, by simp⟩
  · refine ⟨_, rfl, fun v hv => ?_⟩
    rw [List.mem_singleton.1 hv]
    exact ⟨_, rfl, hpl _ (by decide)⟩

example : formatModLdif (str "cn=a,o=b") threeChanges =
    .ok (str "dn: cn=a,o=b\nchangetype: modify\nadd: memberUid\nmemberUid: foo\nmemberUid: bar\n-\ndelete: sn\n-\nreplace: mail\nmail: a@b\n-\n") := by
  decide +kernel

example : ∃ text, formatModLdif (str "cn=a,o=b") threeChanges = .ok text ∧
    processLdif noControls acceptAll () text = runOps acceptAll () [.modify (.text (str "cn=a,o=b")) threeChanges []] := by
  obtain ⟨text, h1, h2⟩ := c86_read_back_partial (σ := Unit) (ρ := Unit) noControls (str "cn=a,o=b") threeChanges
    (by refine ⟨by decide, ?_, ?_, by decide, by decide⟩ <;> simp [isSpace] <;> decide)
    (by
      intro m hm
      simp only [threeChanges, List.mem_cons, List.not_mem_nil, or_false] at hm
      rcases hm with rfl | rfl | rfl <;> refine ⟨⟨by decide, by decide, ?_⟩, by simp⟩ <;> simp only [isSpace] <;> decide)
    threeChanges_plain
  exact ⟨text, h1, h2 _ _⟩

example : ∃ text, formatModLdif (str "cn=a,o=b") threeChanges = .ok text ∧ Describes text (str "cn=a,o=b") threeChanges := by
  have safe : ∀ s : Str, (∀ c ∈ s, reSafe c = true) → (∀ c, s.head? = some c → reInit c = true) → SafeString s :=
    fun s h1 h2 => ⟨fun c hc => (LdifP.reSafe_iff c).1 (h1 c hc), fun c hc => (LdifP.reInit_iff c).1 (h2 c hc)⟩
  refine c86_describes_partial _ _ (safe _ (by decide) (by simp; decide)) ?_ ?_
  · intro m hm
    simp only [threeChanges, List.mem_cons, List.not_mem_nil, or_false] at hm
    rcases hm with rfl | rfl | rfl <;> exact ⟨by decide, by decide, by decide⟩
  · intro m hm
    obtain ⟨l, h1, h2⟩ := threeChanges_plain m hm
    refine ⟨l, h1, fun v hv => ?_⟩
    obtain ⟨s, rfl, -⟩ := h2 v hv
    refine ⟨s, rfl, ?_⟩
    have hmem : s ∈ [str "foo", str "bar", str "a@b"] := by
      simp only [threeChanges, List.mem_cons, List.not_mem_nil, or_false] at hm
      rcases hm with rfl | rfl | rfl <;> simp only [Vals.list.injEq] at h1 <;> subst h1 <;> simp at hv
      · rcases hv with rfl | rfl <;> decide
      · rw [hv]; decide
    simp only [List.mem_cons, List.not_mem_nil, or_false] at hmem
    rcases hmem with rfl | rfl | rfl <;> exact safe _ (by decide) (by simp; decide)

end Laurelin.Props
