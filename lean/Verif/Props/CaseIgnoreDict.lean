import Verif.Lemmas.CaseIgnoreDict
/-! Properties C01 and C02: the case-insensitive dictionary. -/
namespace Laurelin.Props
open Laurelin Laurelin.Spec
variable {K V : Type} [DecidableEq K] (lower : K → K)

/-- **C01.** For every history of operations, every output the caller saw (including the `KeyError`s) is the one
the abstract case-insensitive map gives, and afterwards every lookup (`d[k]`, `d.get(k)`, `k in d`) of every
casing of every key agrees with the abstract map. -/
theorem c01_lookup_refines_map (ops : List (DictOp K V)) :
    let d := (CIDict.run lower CIDict.empty ops).1
    let m := (FoldMap.run lower (fun _ => none) ops).1
    (CIDict.run lower CIDict.empty ops).2 = (FoldMap.run lower (fun _ => none) ops).2 ∧
    ∀ k, (d.getItem lower k = match m (lower k) with | some v => .ok v | none => .error .keyError) ∧
         d.get lower k = m (lower k) ∧
         (d.contains lower k = true ↔ ∃ v, m (lower k) = some v) := by
  have h := CIDict.run_ok lower ops CIDict.empty (CIDict.inv_empty lower)
  rw [CIDict.abs_empty] at h
  refine ⟨h.2.2, fun k => ?_⟩
  have h1 := CIDict.getItem_eq lower _ h.1 k
  rw [h.2.1] at h1
  refine ⟨h1, ?_, ?_⟩
  · simp only [CIDict.get, h1]; split <;> simp_all <;> grind
  · simp only [CIDict.contains, h1]; cases ((FoldMap.run lower (fun _ => none) ops).1 (lower k)) <;> simp

/-- What the abstract map means, spelled out: after a write to any casing `k`, followed by operations that write
or delete no casing of `k`, reading any casing `k'` gives the written value. -/
theorem c01_last_write_wins (pre post : List (DictOp K V)) (k k' : K) (v : V) (hk : lower k' = lower k)
    (hpost : ∀ op ∈ post, match op with
      | .set a _ => lower a ≠ lower k
      | .del a => lower a ≠ lower k
      | .setdefault _ _ => True
      | .update kvs => ∀ a ∈ kvs, lower a.1 ≠ lower k
      | .clear => False
      | .get _ => True) :
    (CIDict.run lower CIDict.empty (pre ++ .set k v :: post)).1.getItem lower k' = .ok v := by
  have h := CIDict.run_ok lower (pre ++ .set k v :: post) CIDict.empty (CIDict.inv_empty lower)
  rw [CIDict.getItem_eq lower _ h.1 k', h.2.1, CIDict.abs_empty, hk]
  clear h
  have keep : ∀ (m : FoldMap K V), m (lower k) = some v → (m.run lower post).1 (lower k) = some v := by
    induction post with
    | nil => intro m hm; exact hm
    | cons op ops ih =>
      intro m hm
      simp only [FoldMap.run]
      refine ih (fun o ho => hpost o (by simp [ho])) _ ?_
      have hop := hpost op (by simp)
      cases op with
      | set a w => simp only [FoldMap.step, FoldMap.put] at *; grind
      | del a =>
        simp only [FoldMap.step] at *
        split
        · simp only [FoldMap.drop]; grind
        · exact hm
      | setdefault a w =>
        simp only [FoldMap.step] at *
        split
        · exact hm
        · simp only [FoldMap.put]; grind
      | clear => exact hop.elim
      | get a => simp only [FoldMap.step]; split <;> exact hm
      | update kvs =>
        simp only [FoldMap.step]
        clear ih hpost
        induction kvs generalizing m with
        | nil => exact hm
        | cons a t ih =>
          simp only [List.foldl_cons]
          exact ih _ (by simp only [FoldMap.put]; have := hop a (by simp); grind)
            (fun b hb => hop b (by simp [hb]))
  have app : ∀ (pre : List (DictOp K V)) (m : FoldMap K V), 
      (m.run lower (pre ++ .set k v :: post)).1 (lower k) = some v := by
    intro pre
    induction pre with
    | nil => intro m; simp only [List.nil_append, FoldMap.run, FoldMap.step]; exact keep _ (by simp [FoldMap.put])
    | cons op ops ih => intro m; simp only [List.cons_append, FoldMap.run]; exact ih _
  rw [app]

/-- Non-vacuity: a history mixing casings; the last write is visible through a third casing. -/
example : (CIDict.run (List.map Char.toLower) CIDict.empty
    ([.set (str "CN") 1, .del (str "Cn"), .set (str "Sn") 7] ++ .set (str "cn") 2 :: [.set (str "SN") 8, .setdefault (str "CN") 9])).1.getItem
      (List.map Char.toLower) (str "cN") = .ok (2 : Nat) := by decide

/-- **C02 (what holds of every history).** Iteration never misses: every key that lookup finds occurs in the
iteration, under some casing, with the value lookup returns; and no casing occurs twice. -/
theorem c02_iteration_complete (ops : List (DictOp K V)) (k : K) (v : V) :
    let d := (CIDict.run lower CIDict.empty ops).1
    (d.getItem lower k = .ok v → ∃ k', lower k' = lower k ∧ (k', v) ∈ d.items) ∧
    (d.items.map Prod.fst).Nodup := by
  have h := (CIDict.run_ok lower ops CIDict.empty (CIDict.inv_empty lower)).1
  refine ⟨fun hg => ?_, h.nd⟩
  simp only [CIDict.getItem] at hg
  split at hg
  · simp at hg
  · rename_i k' hk'
    split at hg
    · simp at hg
    · rename_i w hw
      refine ⟨k', (h.cas _ _ hk').1, ?_⟩
      have : w = v := by simpa using hg
      subst this
      exact PDict.mem_of_get? _ _ _ hw

/-- **C02, partial.** Full statement: after *any* history the iteration is exactly the set of present keys, each
once, with its current value. Proved here when the caller spells each name consistently
(`ConsistentCasing`); `c02_stale_entry` below shows that the hypothesis cannot be dropped. -/
theorem c02_iteration_exact_partial (ops : List (DictOp K V)) (hc : ConsistentCasing lower ops) :
    let d := (CIDict.run lower CIDict.empty ops).1
    (d.items.map (fun kv => lower kv.1)).Nodup ∧
    ∀ k v, d.getItem lower k = .ok v ↔ ∃ k', lower k' = lower k ∧ (k', v) ∈ d.items := by
  have h := (CIDict.run_ok lower ops CIDict.empty (CIDict.inv_empty lower)).1
  have hs := CIDict.self_run lower ops CIDict.empty (ops.flatMap writtenKeys) (CIDict.inv_empty lower)
    (by intro x hx; simp [CIDict.empty, PDict.keys] at hx) (by intro x hx; simp [CIDict.empty, PDict.keys] at hx)
    hc (fun _ h => h)
  refine ⟨?_, fun k v => ⟨(c02_iteration_complete lower ops k v).1, ?_⟩⟩
  · have hn : (PDict.keys (CIDict.run lower CIDict.empty ops).1.data).Nodup := h.nd
    have : ((PDict.keys (CIDict.run lower CIDict.empty ops).1.data).map lower).Nodup := by
      rw [List.nodup_iff_pairwise_ne, List.pairwise_map]
      refine List.Pairwise.imp_of_mem ?_ (List.nodup_iff_pairwise_ne.1 hn)
      intro a b ha hb hab heq
      have h1 := hs a ha
      have h2 := hs b hb
      rw [heq, h2] at h1
      exact hab (by simpa using h1.symm)
    simpa [CIDict.items, PDict.keys, List.map_map, Function.comp_def] using this
  · rintro ⟨k', hk', hm⟩
    have hg : (CIDict.run lower CIDict.empty ops).1.data.get? k' = some v :=
      (PDict.mem_iff_get? _ h.nd k' v).1 hm
    have := hs k' ((PDict.mem_keys_iff _ _).2 ⟨v, hg⟩)
    simp only [CIDict.getItem, ← hk', this, hg]

/-- Non-vacuity of `ConsistentCasing`: several names, deletion and rewriting. -/
example : ConsistentCasing (List.map Char.toLower)
    ([.set (str "CN") 1, .set (str "sn") 2, .del (str "cn"), .setdefault (str "CN") 3] : List (DictOp Str Nat)) := by
  intro a ha b hb h
  simp [writtenKeys] at ha hb
  rcases ha with rfl | rfl | rfl <;> rcases hb with rfl | rfl | rfl <;> first | rfl | (revert h; decide)

/-- **C02 is false of the code**: writing a name under two casings leaves the stale value visible to iteration
(`len` is 2), and deleting the name leaves an orphan that iteration shows but lookup denies. -/
theorem c02_stale_entry :
    let lower := List.map Char.toLower
    let d := (CIDict.run lower CIDict.empty ([.set (str "CN") 1, .set (str "cn") 2] : List (DictOp Str Nat))).1
    let d' := (CIDict.run lower CIDict.empty ([.set (str "CN") 1, .set (str "cn") 2, .del (str "CN")] : List (DictOp Str Nat))).1
    d.items = [(str "CN", 1), (str "cn", 2)] ∧ d.len = 2 ∧ d.getItem lower (str "CN") = .ok 2 ∧
    d'.items = [(str "CN", 1)] ∧ d'.contains lower (str "CN") = false ∧
    CIDict.updateCI lower CIDict.empty d' = .error .keyError := by
  decide

end Laurelin.Props
