import Verif.Spec.Registration
import Verif.Lemmas.PDict
/-! C53: requiring an extension registers its elements once. -/
namespace Laurelin.Props
open Laurelin Registration Spec.RegS
namespace RegP
variable {E S : Type}

theorem belongs_iff (m k : Str) : (k = m ∨ startsWith k (m ++ str ".") = true) ↔ Belongs m k := by
  unfold Belongs startsWith
  rw [List.isPrefixOf_iff_prefix]
  constructor
  · rintro (h | ⟨r, h⟩)
    · exact .inl h
    · exact .inr ⟨r, h.symm⟩
  · rintro (h | ⟨r, h⟩)
    · exact .inl h
    · exact .inr ⟨r, h.symm⟩

/-- the registry is what registering the log gives -/
def Sound (register : S → E → Except Err S) (s0 : S) (st : RState E S) : Prop := st.log.foldlM register s0 = .ok st.reg ∧ st.log.Nodup

/-- `register` refuses only what is registered already -/
def RefusesOnlyAgain (register : S → E → Except Err S) (s0 : S) : Prop :=
  ∀ es e s, (es ++ [e]).Nodup → es.foldlM register s0 = .ok s → ∃ s', register s e = .ok s'

theorem registerAll_ok {register : S → E → Except Err S} {s0 : S} (hr : RefusesOnlyAgain register s0) (es : List E) :
    ∀ st : RState E S, Sound register s0 st → (st.log ++ es).Nodup →
      ∃ s, registerAll register st es = (.ok (), { st with log := st.log ++ es, reg := s }) ∧
        Sound register s0 { st with log := st.log ++ es, reg := s } := by
  induction es with
  | nil => intro st h _; exact ⟨st.reg, by simp [registerAll], by simpa using h⟩
  | cons e es ih =>
    intro st h hn
    have hn1 : (st.log ++ [e]).Nodup := by
      refine List.Sublist.nodup ?_ hn
      simp
    obtain ⟨s', hs'⟩ := hr st.log e st.reg hn1 h.1
    have h' : Sound register s0 { st with log := st.log ++ [e], reg := s' } := by
      refine ⟨?_, hn1⟩
      show (st.log ++ [e]).foldlM register s0 = _
      rw [List.foldlM_append, h.1]
      show ([e].foldlM register st.reg) = _
      simp [List.foldlM, hs']
    obtain ⟨s, h1, h2⟩ := ih { st with log := st.log ++ [e], reg := s' } h' (by simpa using hn)
    refine ⟨s, ?_, by simpa using h2⟩
    simp only [registerAll, hs']
    rw [h1]
    simp

theorem loop_after {register : S → E → Except Err S} {s0 : S} (hr : RefusesOnlyAgain register s0) (m : Str) (rest : PDict Str (List E)) :
    ∀ (st : RState E S) (l : List E), m ∈ st.done → (∀ k ∈ rest.keys, Belongs m k → k ∉ st.done) → ElementsOf (Belongs m) rest l →
      Sound register s0 st → (st.log ++ l).Nodup →
      ∃ s, requireLoop register m st rest = (.ok (), { st with log := st.log ++ l, reg := s }) ∧ Sound register s0 { st with log := st.log ++ l, reg := s } := by
  induction rest with
  | nil => intro st l _ _ hl h _; cases hl; exact ⟨st.reg, by simp [requireLoop], by simpa using h⟩
  | cons kv rest ih =>
    obtain ⟨k, es⟩ := kv
    intro st l hm hk hl h hn
    cases hl with
    | skip hb hl =>
      have : requireLoop register m st ((k, es) :: rest) = requireLoop register m st rest := by
        rw [requireLoop.eq_def]
        simp only [belongs_iff, hb, if_false, ite_self]
      rw [this]
      exact ih st l hm (fun x hx => hk x (by simp [PDict.keys] at hx ⊢; exact .inr hx)) hl h hn
    | @take _ _ _ l' hb hl =>
      obtain ⟨s, h1, h2⟩ := registerAll_ok hr es st h (List.Sublist.nodup (by simp) hn)
      obtain ⟨s2, h3, h4⟩ := ih { st with log := st.log ++ es, reg := s } l' hm
        (fun x hx => hk x (by simp [PDict.keys] at hx ⊢; exact .inr hx)) hl h2 (by simpa using hn)
      refine ⟨s2, ?_, by simpa using h4⟩
      rw [requireLoop.eq_def]
      simp only [belongs_iff, hb, if_true, hk k (by simp [PDict.keys]) hb, if_false, h1, hm]
      rw [h3]; simp

theorem loop_ok {register : S → E → Except Err S} {s0 : S} (hr : RefusesOnlyAgain register s0) (m : Str) (rest : PDict Str (List E)) :
    ∀ (st : RState E S) (l : List E), m ∉ st.done → (∀ k ∈ rest.keys, Belongs m k → k ∉ st.done) → ElementsOf (Belongs m) rest l →
      rest.keys.Nodup → OwnFirst m rest → Sound register s0 st → (st.log ++ l).Nodup →
      ∃ s d, requireLoop register m st rest = (.ok (), { st with log := st.log ++ l, reg := s, done := d }) ∧
        Sound register s0 { st with log := st.log ++ l, reg := s } ∧
        ((d = st.done ∧ ∀ k ∈ rest.keys, ¬ Belongs m k) ∨ d = st.done ++ [m]) := by
  induction rest with
  | nil => intro st l _ _ hl _ _ h _; cases hl; exact ⟨st.reg, st.done, by simp [requireLoop], by simpa using h, .inl ⟨rfl, by simp [PDict.keys]⟩⟩
  | cons kv rest ih =>
    obtain ⟨k, es⟩ := kv
    intro st l hm hk hl hkn hof h hn
    have hkn' := List.nodup_cons.1 hkn
    have hof' : OwnFirst m rest := by
      intro a es' b e kv hkv r
      exact hof ((k, es) :: a) es' b (by simp [e]) kv (by simp [hkv]) r
    cases hl with
    | skip hb hl =>
      have : requireLoop register m st ((k, es) :: rest) = requireLoop register m st rest := by
        rw [requireLoop.eq_def]
        simp only [belongs_iff, hb, if_false, ite_self]
      rw [this]
      obtain ⟨s, d, h1, h2, h3⟩ := ih st l hm (fun x hx => hk x (by simp [PDict.keys] at hx ⊢; exact .inr hx)) hl hkn'.2 hof' h hn
      refine ⟨s, d, h1, h2, h3.imp (fun q => ⟨q.1, fun x hx => ?_⟩) id⟩
      rcases List.mem_cons.1 hx with rfl | hx
      · exact hb
      · exact q.2 x hx
    | @take _ _ _ l' hb hl =>
      obtain ⟨s, h1, h2⟩ := registerAll_ok hr es st h (List.Sublist.nodup (by simp) hn)
      have hmr : m ∉ PDict.keys rest := by
        rcases hb with rfl | ⟨r, hr'⟩
        · exact hkn'.1
        · intro hm'
          obtain ⟨⟨m', es'⟩, hx, rfl⟩ := List.mem_map.1 hm'
          obtain ⟨a, b, e⟩ := List.append_of_mem hx
          exact hof ((k, es) :: a) es' b (by simp [e]) (k, es) (by simp) r hr'
      obtain ⟨s2, h3, h4⟩ := loop_after hr m rest { st with log := st.log ++ es, reg := s, done := st.done ++ [m] } l' (by simp)
        (fun x hx hxb => by
          have h1 : x ∉ st.done := hk x (by simp [PDict.keys] at hx ⊢; exact .inr hx) hxb
          have h2 : x ≠ m := fun e => hmr (e ▸ hx)
          simp [h1, h2]) hl h2 (by simpa using hn)
      refine ⟨s2, st.done ++ [m], ?_, by simpa [Sound] using h4, .inr rfl⟩
      rw [requireLoop.eq_def]
      simp only [belongs_iff, hb, if_true, hk k (by simp [PDict.keys]) hb, if_false, h1, hm]
      rw [h3]; simp

theorem elements_total (P : Str → Prop) (pre : PDict Str (List E)) : ∃ l, ElementsOf P pre l := by
  induction pre with
  | nil => exact ⟨[], .nil⟩
  | cons kv pre ih =>
    obtain ⟨l, h⟩ := ih
    by_cases hp : P kv.1
    · exact ⟨_, .take hp h⟩
    · exact ⟨_, .skip hp h⟩

theorem elements_sub {P : Str → Prop} {pre : PDict Str (List E)} {l : List E} (h : ElementsOf P pre l) :
    ∀ {l'}, ElementsOf (fun _ => True) pre l' → l.Sublist l' := by
  induction h with
  | nil => intro l' h; cases h; simp
  | take hp _ ih =>
    intro l' h
    cases h with
    | take _ h => exact List.Sublist.append (List.Sublist.refl _) (ih h)
    | skip n _ => exact absurd trivial n
  | skip hp _ ih =>
    intro l' h
    cases h with
    | take _ h => exact (ih h).trans (List.sublist_append_right _ _)
    | skip n _ => exact absurd trivial n

theorem elements_empty {P : Str → Prop} {pre : PDict Str (List E)} {l : List E} (h : ElementsOf P pre l) (hp : ∀ k ∈ pre.keys, ¬ P k) : l = [] := by
  induction h with
  | nil => rfl
  | take p _ _ => exact absurd p (hp _ (by simp [PDict.keys]))
  | skip _ _ ih => exact ih (fun k hk => hp k (by simp [PDict.keys] at hk ⊢; exact .inr hk))

theorem elements_or {P Q : Str → Prop} {pre : PDict Str (List E)} {l l' : List E} (h : ElementsOf P pre l) (h' : ElementsOf Q pre l')
    (hd : ∀ k ∈ pre.keys, P k → ¬ Q k) : ∃ l'', ElementsOf (fun k => P k ∨ Q k) pre l'' ∧ (l ++ l').Perm l'' := by
  induction h generalizing l' with
  | nil => cases h'; exact ⟨[], .nil, by simp⟩
  | @take k es rest l p _ ih =>
    have hq : ¬ Q k := hd k (by simp [PDict.keys]) p
    cases h' with
    | take q _ => exact absurd q hq
    | skip _ h' =>
      obtain ⟨l'', h1, h2⟩ := ih h' (fun k hk => hd k (by simp [PDict.keys] at hk ⊢; exact .inr hk))
      exact ⟨es ++ l'', .take (.inl p) h1, by simpa using h2.append_left es⟩
  | @skip k es rest l p _ ih =>
    cases h' with
    | @take _ _ _ l2 q h' =>
      obtain ⟨l'', h1, h2⟩ := ih h' (fun k hk => hd k (by simp [PDict.keys] at hk ⊢; exact .inr hk))
      refine ⟨es ++ l'', .take (.inr q) h1, ?_⟩
      have : (l ++ (es ++ l2)).Perm (es ++ (l ++ l2)) := by
        rw [← List.append_assoc, ← List.append_assoc]
        exact List.perm_append_comm.append_right l2
      exact this.trans (h2.append_left es)
    | skip q h' =>
      obtain ⟨l'', h1, h2⟩ := ih h' (fun k hk => hd k (by simp [PDict.keys] at hk ⊢; exact .inr hk))
      exact ⟨l'', .skip (by simp [p, q]) h1, h2⟩

theorem elements_congr {P Q : Str → Prop} {pre : PDict Str (List E)} {l : List E} (h : ElementsOf P pre l) (hpq : ∀ k, P k ↔ Q k) : ElementsOf Q pre l := by
  induction h with
  | nil => exact .nil
  | take p _ ih => exact .take ((hpq _).1 p) ih
  | skip p _ ih => exact .skip (fun q => p ((hpq _).2 q)) ih

theorem elements_unique {P : Str → Prop} {pre : PDict Str (List E)} {l l' : List E} (h : ElementsOf P pre l) (h' : ElementsOf P pre l') : l = l' := by
  induction h generalizing l' with
  | nil => cases h'; rfl
  | take p _ ih =>
    cases h' with
    | take _ h' => rw [ih h']
    | skip q _ => exact absurd p q
  | skip p _ ih =>
    cases h' with
    | take q _ => exact absurd q p
    | skip _ h' => exact ih h'

/-- one name cannot belong to two unrelated modules -/
theorem belongs_two (m m' k : Str) (h : Belongs m k) (h' : Belongs m' k) (hu : Unrelated m m') : m = m' := by
  rcases h with rfl | ⟨r, rfl⟩
  · rcases h' with e | ⟨r', e⟩
    · exact e
    · exact absurd e (hu r').1
  · rcases h' with e | ⟨r', e⟩
    · exact absurd e.symm (hu r).2
    · rw [List.append_assoc, List.append_assoc] at e
      rcases List.append_eq_append_iff.1 e with ⟨a, h1, h2⟩ | ⟨a, h1, h2⟩
      · cases a with
        | nil => simpa using h1.symm
        | cons c a =>
          simp only [List.cons_append, List.nil_append, List.cons.injEq] at h2
          obtain ⟨rfl, _⟩ := h2
          exact absurd (by simpa using h1) (hu a).2
      · cases a with
        | nil => simpa using h1
        | cons c a =>
          simp only [List.cons_append, List.nil_append, List.cons.injEq] at h2
          obtain ⟨rfl, _⟩ := h2
          exact absurd (by simpa using h1) (hu a).1

end RegP
open RegP

/-- **C53.** After requiring any modules, any number of times and in any order, exactly the elements of those modules and their submodules have been
registered, each once, and no call fails — when no required module is a submodule of another, a package defines its own elements before those of
its submodules are, the elements are distinct, and the registries refuse nothing but what they hold. -/
theorem c53_partial {E S : Type} (register : S → E → Except Err S) (s0 : S) (hr : RefusesOnlyAgain register s0)
    (pre : PDict Str (List E)) (hk : pre.keys.Nodup) (all : List E) (hall : ElementsOf (fun _ => True) pre all) (hd : all.Nodup)
    (ms : List Str) (hu : ∀ m ∈ ms, ∀ m' ∈ ms, Unrelated m m') (ho : ∀ m ∈ ms, OwnFirst m pre) :
    (∀ l, ElementsOf (fun k => ∃ m ∈ ms, Belongs m k) pre l → (requireAll register ⟨pre, [], [], s0⟩ ms).log.Perm l) ∧
    (requireAll register ⟨pre, [], [], s0⟩ ms).log.Nodup ∧
    (∀ a m b, ms = a ++ m :: b → (requireMod register m (requireAll register ⟨pre, [], [], s0⟩ a)).1 = .ok ()) := by
  have main : ∀ prev todo : List Str, (∀ m, m ∈ prev ∨ m ∈ todo → m ∈ ms) → ∀ st : RState E S, st.pre = pre → (∀ d ∈ st.done, d ∈ prev) →
      (∀ m ∈ prev, m ∉ st.done → ∀ k ∈ pre.keys, ¬ Belongs m k) →
      (∀ l, ElementsOf (fun k => ∃ m ∈ prev, Belongs m k) pre l → st.log.Perm l) → Sound register s0 st →
      (∀ l, ElementsOf (fun k => ∃ m ∈ prev ++ todo, Belongs m k) pre l → (requireAll register st todo).log.Perm l) ∧
      (requireAll register st todo).log.Nodup ∧
      (∀ a m b, todo = a ++ m :: b → (requireMod register m (requireAll register st a)).1 = .ok ()) := by
    intro prev todo
    induction todo generalizing prev with
    | nil => intro _ st _ _ _ hl hs; exact ⟨by simpa [requireAll] using hl, by simpa [requireAll] using hs.2, by simp⟩
    | cons m todo ih =>
      intro hms st hpre hdone hnone hlog hs
      have hmem : m ∈ ms := hms m (.inr (by simp))
      have key : ∃ st', requireMod register m st = (.ok (), st') ∧ st'.pre = pre ∧ (∀ d ∈ st'.done, d ∈ prev ++ [m]) ∧
          (∀ x ∈ prev ++ [m], x ∉ st'.done → ∀ k ∈ pre.keys, ¬ Belongs x k) ∧
          (∀ l, ElementsOf (fun k => ∃ x ∈ prev ++ [m], Belongs x k) pre l → st'.log.Perm l) ∧ Sound register s0 st' := by
        by_cases hmd : m ∈ st.done
        · refine ⟨st, by simp [requireMod, hmd], hpre, fun d q => by simp [hdone d q], ?_, ?_, hs⟩
          · intro x hx hxd
            rcases List.mem_append.1 hx with h | h
            · exact hnone x h hxd
            · have : x = m := by simpa using h
              exact absurd (this ▸ hmd) hxd
          · intro l hl
            refine hlog l (elements_congr hl (fun k => ⟨?_, ?_⟩))
            · rintro ⟨x, hx, hb⟩
              rcases List.mem_append.1 hx with h | h
              · exact ⟨x, h, hb⟩
              · have : x = m := by simpa using h
                exact ⟨m, hdone m hmd, this ▸ hb⟩
            · rintro ⟨x, hx, hb⟩; exact ⟨x, by simp [hx], hb⟩
        · obtain ⟨l1, hl1⟩ := elements_total (E := E) (Belongs m) pre
          obtain ⟨l0, hl0⟩ := elements_total (E := E) (fun k => ∃ x ∈ prev, Belongs x k) pre
          have hperm0 := hlog l0 hl0
          have disj : m ∉ prev → ∀ k ∈ pre.keys, (∃ x ∈ prev, Belongs x k) → ¬ Belongs m k := by
            rintro hmp k _ ⟨x, hx, hb⟩ hb'
            have := belongs_two x m k hb hb' (hu x (hms x (.inl hx)) m hmem)
            exact hmp (this ▸ hx)
          have hdk : ∀ k ∈ pre.keys, Belongs m k → k ∉ st.done := by
            intro k _ hb hkd
            have : k ∈ ms := hms k (.inl (hdone k hkd))
            have := belongs_two m k k hb (.inl rfl) (hu m hmem k this)
            exact hmd (this ▸ hkd)
          have hdisj' : ∀ k ∈ pre.keys, (∃ x ∈ prev, Belongs x k) → ¬ Belongs m k := by
            by_cases hmp : m ∈ prev
            · intro k hk _; exact hnone m hmp hmd k hk
            · exact disj hmp
          obtain ⟨l2, hl2, hp2⟩ := elements_or hl0 hl1 hdisj'
          have hn2 : (st.log ++ l1).Nodup := by
            refine ((hperm0.append_right l1).trans hp2).nodup_iff.2 ?_
            exact List.Sublist.nodup (elements_sub hl2 hall) hd
          obtain ⟨s, d, g1, g2, g3⟩ := loop_ok hr m pre st l1 hmd hdk hl1 hk (ho m hmem) hs hn2
          refine ⟨{ st with done := d, log := st.log ++ l1, reg := s }, by rw [requireMod, if_neg hmd]; simpa only [hpre] using g1, hpre, ?_, ?_, ?_, g2⟩
          · intro x hx
            rcases g3 with ⟨rfl, _⟩ | rfl
            · simp [hdone x hx]
            · rcases List.mem_append.1 hx with h | h
              · simp [hdone x h]
              · simp at h; simp [h]
          · intro x hx hxd
            rcases g3 with ⟨rfl, hno⟩ | rfl
            · rcases List.mem_append.1 hx with h | h
              · exact hnone x h hxd
              · have : x = m := by simpa using h
                rw [this]; exact hno
            · rcases List.mem_append.1 hx with h | h
              · exact hnone x h (fun q => hxd (by simp [q]))
              · exact absurd (by simp at h; simp [h]) hxd
          · intro l hl
            have : l = l2 := elements_unique (elements_congr hl (fun k => by simp [or_and_right, exists_or])) hl2
            rw [this]
            exact (hperm0.append_right l1).trans hp2
      obtain ⟨st', k1, k2, k3, k4, k5, k6⟩ := key
      obtain ⟨i1, i2, i3⟩ := ih (prev ++ [m]) (fun x hx => hms x (by
        rcases hx with h | h
        · simp at h; rcases h with h | h <;> simp [h]
        · simp [h])) st' k2 k3 k4 k5 k6
      have hstep : ∀ l, requireAll register st (m :: l) = requireAll register st' l := by
        intro l; simp [requireAll, k1]
      refine ⟨?_, ?_, ?_⟩
      · rw [hstep]; simpa using i1
      · rw [hstep]; exact i2
      · intro a x b e
        cases a with
        | nil =>
          simp only [List.nil_append, List.cons.injEq] at e
          obtain ⟨rfl, rfl⟩ := e
          show (requireMod register m st).1 = _
          rw [k1]
        | cons y a =>
          simp only [List.cons_append, List.cons.injEq] at e
          obtain ⟨rfl, rfl⟩ := e
          rw [hstep]
          exact i3 a x b rfl
  have := main [] ms (by simp) ⟨pre, [], [], s0⟩ rfl (by simp) (by simp) ?_ ⟨rfl, by simp⟩
  · simpa using this
  · intro l hl
    rw [elements_empty hl (by simp)]

/-- **C53.** Requiring a module again right after it was required does nothing. -/
theorem c53_again {E S : Type} (register : S → E → Except Err S) (m : Str) (st st' : RState E S) (h : requireMod register m st = (.ok (), st')) :
    requireMod register m st' = (.ok (), st') := by
  have key : ∀ (rest : PDict Str (List E)) (st st' : RState E S), requireLoop register m st rest = (.ok (), st') →
      st'.pre = st.pre ∧ (∀ d ∈ st.done, d ∈ st'.done) ∧ (m ∈ st'.done ∨ st' = st) := by
    have reg : ∀ (es : List E) (st st' : RState E S), registerAll register st es = (.ok (), st') → st'.pre = st.pre ∧ st'.done = st.done := by
      intro es
      induction es with
      | nil => intro st st' h; simp only [registerAll, Prod.mk.injEq] at h; simp [h.2]
      | cons e es ih =>
        intro st st' h
        simp only [registerAll] at h
        split at h
        · simp at h
        · have := ih _ _ h; exact this
    intro rest
    induction rest with
    | nil => intro st st' h; simp only [requireLoop, Prod.mk.injEq] at h; simp [h.2]
    | cons kv rest ih =>
      intro st st' h
      simp only [requireLoop] at h
      split at h
      · exact ih _ _ h
      · split at h
        · split at h
          · simp at h
          · rename_i st1 hr
            obtain ⟨r1, r2⟩ := reg _ _ _ hr
            obtain ⟨i1, i2, i3⟩ := ih _ _ h
            have hm : m ∈ st'.done := i2 m (by show m ∈ (if m ∈ st1.done then st1.done else st1.done ++ [m]); split <;> simp_all)
            refine ⟨by rw [i1, ← r1], fun d hd => i2 d ?_, .inl hm⟩
            show d ∈ (if m ∈ st1.done then st1.done else st1.done ++ [m])
            rw [r2]; split <;> simp [hd]
        · exact ih _ _ h
  unfold requireMod at h
  split at h
  · rename_i hm
    simp only [Prod.mk.injEq, true_and] at h
    simp [requireMod, ← h, hm]
  · rename_i hm
    obtain ⟨_, _, h3⟩ := key _ _ _ h
    rcases h3 with h3 | rfl
    · simp [requireMod, h3]
    · rw [requireMod, if_neg hm, h]

/-- **C53.** Attributes whose name begins with an underscore are not collected, and of the others exactly the elements, in order. -/
theorem c53_collected {E S : Type} (st : RState E S) (m : Str) (dct : List (Str × AttrVal E)) :
    ((defineClass st m dct).pre.get? m).getD [] = (st.pre.get? m).getD [] ++
        dct.filterMap (fun av => match av.1, av.2 with | '_' :: _, _ => none | _, .other => none | _, .element e => some e) ∧
    ∀ k, k ≠ m → (defineClass st m dct).pre.get? k = st.pre.get? k := by
  unfold defineClass
  induction dct generalizing st with
  | nil => simp
  | cons av dct ih =>
    obtain ⟨a, v⟩ := av
    obtain ⟨i1, i2⟩ := ih { st with pre := preregister1 m st.pre (a, v) }
    simp only [List.foldl_cons]
    refine ⟨?_, fun k hk => ?_⟩
    · rw [i1]
      cases a with
      | nil =>
        cases v with
        | other => simp [preregister1, startsWith]
        | element e => simp [preregister1, startsWith, PDict.get?_set]
      | cons c a =>
        by_cases hc : c = '_'
        · subst hc; simp [preregister1, startsWith]
        · cases v with
          | other => simp [preregister1, startsWith, hc]
          | element e => simp [preregister1, startsWith, PDict.get?_set, hc, Ne.symm hc]
    · rw [i2 k hk]
      simp only [preregister1]
      split
      · rfl
      · split
        · rfl
        · rw [PDict.get?_set, if_neg hk]

/-! ### concrete cases and findings -/

/-- a registry that refuses what it holds -/
def once : List Nat → Nat → Except Err (List Nat) := fun s e => if e ∈ s then .error .extension else .ok (s ++ [e])

theorem once_refuses : RefusesOnlyAgain once [] := by
  have key : ∀ (es : List Nat) (s : List Nat), es.foldlM once s = .ok (s ++ es) ∨ ∃ x, es.foldlM once s = .error x := by
    intro es
    induction es with
    | nil => intro s; left; simp [List.foldlM]; rfl
    | cons e es ih =>
      intro s
      by_cases h : e ∈ s
      · right; exact ⟨.extension, by simp [List.foldlM, once, h]; rfl⟩
      · have : (e :: es).foldlM once s = es.foldlM once (s ++ [e]) := by simp [List.foldlM, once, h]; rfl
        rw [this]
        simpa using ih (s ++ [e])
  intro es e s hn h
  rcases key es [] with h' | ⟨x, h'⟩
  · rw [h] at h'
    have : s = es := by simpa using h'
    subst this
    have := List.nodup_append.1 hn
    exact ⟨s ++ [e], by simp [once]; intro q; exact absurd rfl (this.2.2 e q e (by simp))⟩
  · rw [h] at h'; cases h'

example : (requireAll once ⟨[(str "a", [1, 2]), (str "a.b", [3]), (str "c", [4]), (str "ab", [5])], [], [], []⟩
    [str "c", str "a", str "c", str "a", str "zz"]).log = [4, 1, 2, 3] := by decide +kernel

/-- the hypotheses of `c53_partial` are met by a package with a submodule beside another module -/
example : (requireAll once ⟨[(str "a", [1, 2]), (str "a.b", [3]), (str "c", [4])], [], [], []⟩ [str "c", str "a", str "c"]).log.Nodup := by
  refine (c53_partial once [] once_refuses _ (by decide) [1, 2, 3, 4] (.take trivial (.take trivial (.take (es := [4]) trivial .nil))) (by decide) _ ?_ ?_).2.1
  · have h1 : Unrelated (str "c") (str "a") := by intro r; constructor <;> simp
    have h2 : Unrelated (str "a") (str "c") := by intro r; constructor <;> simp
    have h3 : Unrelated (str "a") (str "a") := by intro r; constructor <;> simp
    have h4 : Unrelated (str "c") (str "c") := by intro r; constructor <;> simp
    simp only [List.mem_cons, List.not_mem_nil, or_false]
    rintro m (rfl | rfl | rfl) m' (rfl | rfl | rfl) <;> assumption
  · have h1 : OwnFirst (E := Nat) (str "a") [(str "a", [1, 2]), (str "a.b", [3]), (str "c", [4])] := by
      intro a es b e kv hkv r
      cases a with
      | nil => cases hkv
      | cons x a => 
        simp only [List.cons_append, List.cons.injEq] at e
        obtain ⟨_, e⟩ := e
        have : (str "a", es) ∈ [(str "a.b", [3]), (str "c", [4])] := by rw [e]; simp
        simp at this
    have h2 : OwnFirst (E := Nat) (str "c") [(str "a", [1, 2]), (str "a.b", [3]), (str "c", [4])] := by
      intro a es b e kv hkv r
      have : kv ∈ [(str "a", [1, 2]), (str "a.b", [3]), (str "c", [4])] := by rw [e]; simp [hkv]
      simp only [List.mem_cons, List.not_mem_nil, or_false] at this
      rcases this with rfl | rfl | rfl <;> simp
    simp only [List.mem_cons, List.not_mem_nil, or_false]
    rintro m (rfl | rfl | rfl) <;> assumption

/-- **C53, finding.** Requiring a package and then one of its submodules registers the submodule's elements twice; with registries that refuse
duplicates the second call raises. -/
theorem c53_submodule_twice (p r : Str) (e : Nat) :
    let st : RState Nat (List Nat) := ⟨[(p ++ str "." ++ r, [e])], [], [], []⟩
    (requireAll (fun s _ => .ok s) st [p, p ++ str "." ++ r]).log = [e, e] ∧
    (requireMod once (p ++ str "." ++ r) (requireAll once st [p])).1 = .error .extension := by
  have hs : startsWith (p ++ str "." ++ r) (p ++ str ".") = true := by
    unfold startsWith; rw [List.isPrefixOf_iff_prefix]; exact ⟨r, rfl⟩
  have hne : p ++ str "." ++ r ≠ p := by
    intro h
    have := congrArg List.length h
    simp at this
  have hne' : ¬ (p ++ str "." ++ r = p) := hne
  simp only [requireAll, List.foldl_cons, List.foldl_nil, requireMod, List.not_mem_nil, if_false, requireLoop, hs, or_true, if_true, registerAll,
    once, List.mem_singleton, hne', List.nil_append, true_or]
  refine ⟨?_, ?_⟩ <;> simp

/-- **C53, finding.** When a submodule's elements were collected before the package's own (the usual order when the package imports the submodule at
its top), requiring the package registers the submodule's elements only: the package's own are never registered, however often it is required. -/
theorem c53_own_skipped (p r : Str) (a b : Nat) (n : Nat) :
    let st : RState Nat (List Nat) := ⟨[(p ++ str "." ++ r, [a]), (p, [b])], [], [], []⟩
    (requireAll once st (List.replicate (n + 1) p)).log = [a] := by
  have hs : startsWith (p ++ str "." ++ r) (p ++ str ".") = true := by
    unfold startsWith; rw [List.isPrefixOf_iff_prefix]; exact ⟨r, rfl⟩
  have hs' : startsWith (p ++ '.' :: r) (p ++ str ".") = true := by simpa using hs
  intro st
  have h1 : requireMod once p st = (.ok (), ⟨st.pre, [p], [a], [a]⟩) := by
    simp [st, requireMod, requireLoop, hs', registerAll, once]
  have h2 : ∀ n, requireAll once ⟨st.pre, [p], [a], [a]⟩ (List.replicate n p) = ⟨st.pre, [p], [a], [a]⟩ := by
    intro n
    induction n with
    | zero => rfl
    | succ n ih =>
      have : requireAll once ⟨st.pre, [p], [a], [a]⟩ (List.replicate (n + 1) p) = requireAll once ⟨st.pre, [p], [a], [a]⟩ (List.replicate n p) := by
        simp [requireAll, List.replicate_succ, requireMod]
      rw [this, ih]
  have h3 : requireAll once st (List.replicate (n + 1) p) = requireAll once ⟨st.pre, [p], [a], [a]⟩ (List.replicate n p) := by
    simp [requireAll, List.replicate_succ, h1]
  rw [h3, h2]

/-- **C53, finding.** Elements of a submodule imported after the package was required are not registered by requiring the package again. -/
theorem c53_late_ignored (p r : Str) (a b : Nat) :
    let st : RState Nat (List Nat) := ⟨[(p, [a])], [], [], []⟩
    (requireMod once p (defineClass (requireMod once p st).2 (p ++ str "." ++ r) [(str "x", .element b)])).2.log = [a] := by
  simp [requireMod, requireLoop, registerAll, once, defineClass, preregister1, startsWith]

/-- **C53, finding.** When an element is refused, the module is not marked: the next call registers its first elements again and fails at once. -/
theorem c53_retry_fails :
    let st : RState Nat (List Nat) := ⟨[(str "m", [1, 2])], [], [], [2]⟩
    (requireMod once (str "m") st).1 = .error .extension ∧ (requireAll once st [str "m", str "m"]).log = [1, 2, 1] := by
  decide +kernel

end Laurelin.Props
