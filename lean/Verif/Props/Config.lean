import Verif.Spec.Config
import Verif.Lemmas.PDict
import Verif.Props.SearchRequest
/-!
C49: configuration.
-/
namespace Laurelin.Props
open Laurelin Laurelin.Spec Laurelin.Config

namespace CfgP
variable {up : Str → Str}

theorem startsWith_iff (s p : Str) : startsWith s p = true ↔ p <+: s := by simp [startsWith, List.isPrefixOf_iff_prefix]

theorem normalize_iff (g : Globals) (hg : PlainNames g) (k attr : Str) (ha : attr ∈ g.keys) :
    normalizeParam up k = attr ↔ NamesSetting up k attr := by
  obtain ⟨x, rfl, hx⟩ := hg attr ha
  unfold normalizeParam
  constructor
  · split
    · intro h; exact ⟨x, rfl, .inr h⟩
    · intro h; exact ⟨x, rfl, .inl (List.append_cancel_left h)⟩
  · rintro ⟨y, hy, h⟩
    have : x = y := List.append_cancel_left hy
    subst this
    rcases h with h | h
    · rw [h, if_neg (by rw [startsWith_iff]; exact hx)]
    · rw [h, if_pos (by rw [startsWith_iff]; exact ⟨x, rfl⟩)]

theorem mapper_ok (attr : Str) (v w : CVal) : globalMapper up attr v = .ok w ↔ Denotes up attr v w := by
  unfold globalMapper
  by_cases h : attr = str "DEFAULT_FILTER_SYNTAX"
  · rw [if_pos h]
    constructor
    · intro hm
      unfold filterSyntaxString at hm
      split at hm
      · split at hm
        · cases hm; exact .standard _ h (by assumption)
        · split at hm
          · cases hm; exact .simple _ h (by assumption)
          · split at hm
            · cases hm; exact .unified _ h (by assumption)
            · cases hm
      · cases hm
    · intro hd
      cases hd with
      | plain _ hn => exact absurd h hn
      | standard s _ hs => simp [filterSyntaxString, hs]
      | simple s _ hs => simp [filterSyntaxString, hs]
      | unified s _ hs => simp [filterSyntaxString, hs]
  · rw [if_neg h]
    constructor
    · intro hm; cases hm; exact .plain _ h
    · intro hd
      cases hd with
      | plain _ _ => rfl
      | standard _ h' _ => exact absurd h' h
      | simple _ h' _ => exact absurd h' h
      | unified _ h' _ => exact absurd h' h

theorem mapper_err (attr : Str) (v : CVal) (e : Err) (h : globalMapper up attr v = .error e) : e = .attributeError := by
  unfold globalMapper at h
  split at h
  · unfold filterSyntaxString at h
    split at h
    · split at h
      · cases h
      · split at h
        · cases h
        · split at h
          · cases h
          · cases h; rfl
    · cases h; rfl
  · cases h

theorem keys_set_mem {V : Type} (d : PDict Str V) (k : Str) (v : V) (h : k ∈ d.keys) : (d.set k v).keys = d.keys := by
  induction d with
  | nil => cases h
  | cons p d ih =>
    obtain ⟨a, w⟩ := p
    simp only [PDict.set]
    split
    · rename_i hk; simp [PDict.keys]
    · rename_i hk
      simp only [PDict.keys, List.map_cons, List.mem_cons] at h ⊢
      rcases h with h | h
      · exact absurd h.symm hk
      · have := ih h
        simp only [PDict.keys] at this
        rw [this]

theorem applied_nil (g : Globals) : AppliedTo up g [] g := ⟨rfl, fun _ _ => .inr ⟨by simp, rfl⟩⟩

/-- one known entry -/
theorem applied_step (g g' : Globals) (hg : PlainNames g) (k : Str) (v w : CVal) (t : PDict Str CVal) (hk : normalizeParam up k ∈ g.keys)
    (hd : Denotes up (normalizeParam up k) v w) (h : AppliedTo up (g.set (normalizeParam up k) w) t g') :
    AppliedTo up g ((k, v) :: t) g' := by
  have hkeys := keys_set_mem g _ w hk
  refine ⟨h.same.trans hkeys, fun attr ha => ?_⟩
  rcases h.value attr (by rw [hkeys]; exact ha) with ⟨pre, k', v', post, w', h1, h2, h3, h4, h5⟩ | ⟨h1, h2⟩
  · exact .inl ⟨(k, v) :: pre, k', v', post, w', by rw [h1]; rfl, h2, h3, h4, h5⟩
  · by_cases hn : normalizeParam up k = attr
    · refine .inl ⟨[], k, v, t, w, rfl, (normalize_iff g hg k attr ha).1 hn, h1, hn ▸ hd, ?_⟩
      rw [h2, PDict.get?_set, if_pos hn.symm]
    · refine .inr ⟨?_, ?_⟩
      · intro kv hkv
        rcases List.mem_cons.1 hkv with rfl | hkv
        · rw [← normalize_iff g hg k attr ha]; exact hn
        · exact h1 kv hkv
      · rw [h2, PDict.get?_set, if_neg (fun e => hn e.symm)]

theorem applied_skip (g g' : Globals) (hg : PlainNames g) (k : Str) (v : CVal) (t : PDict Str CVal) (hk : normalizeParam up k ∉ g.keys)
    (h : AppliedTo up g t g') : AppliedTo up g ((k, v) :: t) g' := by
  refine ⟨h.same, fun attr ha => ?_⟩
  rcases h.value attr ha with ⟨pre, k', v', post, w', h1, h2, h3, h4, h5⟩ | ⟨h1, h2⟩
  · exact .inl ⟨(k, v) :: pre, k', v', post, w', by rw [h1]; rfl, h2, h3, h4, h5⟩
  · refine .inr ⟨?_, h2⟩
    intro kv hkv
    rcases List.mem_cons.1 hkv with rfl | hkv
    · rw [← normalize_iff g hg k attr ha]; rintro rfl; exact hk ha
    · exact h1 kv hkv

theorem known_iff (g : Globals) (hg : PlainNames g) (k : Str) : Known up g k ↔ normalizeParam up k ∈ g.keys := by
  constructor
  · rintro ⟨attr, ha, hn⟩
    rw [(normalize_iff g hg k attr ha).2 hn]; exact ha
  · intro h; exact ⟨_, h, (normalize_iff g hg k _ h).1 rfl⟩

theorem bad_iff (g : Globals) (hg : PlainNames g) (k : Str) (v : CVal) :
    BadEntry up g (k, v) ↔ normalizeParam up k ∈ g.keys ∧ ¬ ∃ w, Denotes up (normalizeParam up k) v w := by
  constructor
  · rintro ⟨attr, ha, hn, hw⟩
    have := (normalize_iff g hg k attr ha).2 hn
    rw [this]; exact ⟨ha, hw⟩
  · rintro ⟨h, hw⟩; exact ⟨_, h, (normalize_iff g hg k _ h).1 rfl, hw⟩

theorem plain_congr (g g' : Globals) (h : g'.keys = g.keys) (hg : PlainNames g) : PlainNames g' := by
  intro a ha; exact hg a (h ▸ ha)

theorem known_congr (g g' : Globals) (h : g'.keys = g.keys) (k : Str) : Known up g' k ↔ Known up g k := by
  simp only [Known, h]
theorem badE_congr (g g' : Globals) (h : g'.keys = g.keys) (kv : Str × CVal) : BadEntry up g' kv ↔ BadEntry up g kv := by
  simp only [BadEntry, h]

/-- what the loop does -/
theorem loop_char (g : Globals) (hg : PlainNames g) (cfg : PDict Str CVal) (bad : Bool) :
    (∃ b g', setGlobalLoop up g bad cfg = (.ok b, g') ∧ AppliedTo up g cfg g' ∧ (∀ kv ∈ cfg, ¬ BadEntry up g kv) ∧
      (b = true ↔ bad = true ∨ ∃ kv ∈ cfg, ¬ Known up g kv.1)) ∨
    (∃ g' pre kv post, setGlobalLoop up g bad cfg = (.error .attributeError, g') ∧ cfg = pre ++ kv :: post ∧ AppliedTo up g pre g' ∧
      (∀ kv ∈ pre, ¬ BadEntry up g kv) ∧ BadEntry up g kv) := by
  induction cfg generalizing g bad with
  | nil => exact .inl ⟨bad, g, rfl, applied_nil g, by simp, by simp⟩
  | cons kv t ih =>
    obtain ⟨k, v⟩ := kv
    simp only [setGlobalLoop]
    by_cases hk : normalizeParam up k ∈ g.keys
    · have hs : (g.get? (normalizeParam up k)).isSome = true := by
        obtain ⟨x, hx⟩ := (PDict.mem_keys_iff g _).1 hk
        rw [hx]; rfl
      rw [if_pos hs]
      cases hm : globalMapper up (normalizeParam up k) v with
      | error e =>
        have := mapper_err _ _ _ hm
        subst this
        refine .inr ⟨g, [], (k, v), t, rfl, rfl, applied_nil g, by simp, ?_⟩
        rw [bad_iff g hg]
        refine ⟨hk, ?_⟩
        rintro ⟨w, hw⟩
        rw [← mapper_ok, hm] at hw; cases hw
      | ok w =>
        have hd := (mapper_ok _ _ _).1 hm
        have hkeys := keys_set_mem g _ w hk
        have hnb : ¬ BadEntry up g (k, v) := by
          rw [bad_iff g hg]; exact fun h => h.2 ⟨w, hd⟩
        have hkn : Known up g k := (known_iff g hg k).2 hk
        rcases ih (g.set (normalizeParam up k) w) (plain_congr _ _ hkeys hg) bad with
          ⟨b, g', h1, h2, h3, h4⟩ | ⟨g', pre, kv, post, h1, h2, h3, h4, h5⟩
        · refine .inl ⟨b, g', h1, applied_step g g' hg k v w t hk hd h2, ?_, ?_⟩
          · intro kv hkv
            rcases List.mem_cons.1 hkv with rfl | hkv
            · exact hnb
            · rw [← badE_congr g _ hkeys]; exact h3 kv hkv
          · rw [h4]
            simp only [List.mem_cons, exists_eq_or_imp, known_congr g _ hkeys, hkn, not_true, false_or]
        · refine .inr ⟨g', (k, v) :: pre, kv, post, h1, by rw [h2]; rfl, applied_step g g' hg k v w pre hk hd h3, ?_, ?_⟩
          · intro kv hkv
            rcases List.mem_cons.1 hkv with rfl | hkv
            · exact hnb
            · rw [← badE_congr g _ hkeys]; exact h4 kv hkv
          · rw [← badE_congr g _ hkeys]; exact h5
    · have hs : (g.get? (normalizeParam up k)).isSome = false := by
        rw [(PDict.get?_none_iff g _).2 hk]; rfl
      rw [if_neg (by rw [hs]; simp)]
      have hnb : ¬ BadEntry up g (k, v) := by
        rw [bad_iff g hg]; exact fun h => hk h.1
      have hkn : ¬ Known up g k := fun h => hk ((known_iff g hg k).1 h)
      rcases ih g hg true with ⟨b, g', h1, h2, h3, h4⟩ | ⟨g', pre, kv, post, h1, h2, h3, h4, h5⟩
      · refine .inl ⟨b, g', h1, applied_skip g g' hg k v t hk h2, ?_, ?_⟩
        · intro kv hkv
          rcases List.mem_cons.1 hkv with rfl | hkv
          · exact hnb
          · exact h3 kv hkv
        · rw [h4]
          simp only [List.mem_cons, exists_eq_or_imp, hkn, not_false_eq_true, true_or, or_true]
      · refine .inr ⟨g', (k, v) :: pre, kv, post, h1, by rw [h2]; rfl, applied_skip g g' hg k v pre hk h3, ?_, h5⟩
        intro kv hkv
        rcases List.mem_cons.1 hkv with rfl | hkv
        · exact hnb
        · exact h4 kv hkv

end CfgP
open CfgP

/-- **C49, casing.** Written in any casing, with or without `DEFAULT_`, an ASCII key names its parameter: every spelling `k` whose capitals
are `X` or `DEFAULT_X` sets `DEFAULT_X`. -/
theorem c49_casing (up : Str → Str) (hup : UpperAscii up) (g : Globals) (hg : PlainNames g) (x k : Str) (v : CVal)
    (ha : str "DEFAULT_" ++ x ∈ g.keys) (hx : str "DEFAULT_" ++ x ≠ str "DEFAULT_FILTER_SYNTAX") (hk : ∀ c ∈ k, c.toNat < 128)
    (h : k.map Char.toUpper = x ∨ k.map Char.toUpper = str "DEFAULT_" ++ x) :
    (setGlobal up g [(k, v)]).1 = .ok () ∧ (setGlobal up g [(k, v)]).2.get? (str "DEFAULT_" ++ x) = some v := by
  have hn : NamesSetting up k (str "DEFAULT_" ++ x) := ⟨x, rfl, by rw [hup k hk]; exact h⟩
  have hnb : ¬ BadEntry up g (k, v) := by
    rw [bad_iff g hg]
    rintro ⟨_, hw⟩
    rw [(normalize_iff g hg k _ ha).2 hn] at hw
    exact hw ⟨v, .plain v hx⟩
  rcases loop_char (up := up) g hg [(k, v)] false with ⟨b, g', h1, h2, h3, h4⟩ | ⟨g', pre, kv, post, h1, h2, h3, h4, h5⟩
  · have hb : b = false := by
      cases b with
      | false => rfl
      | true =>
        obtain h | ⟨kv, hkv, h⟩ := h4.1 rfl
        · cases h
        · simp only [List.mem_singleton] at hkv
          subst hkv
          exact absurd ⟨_, ha, hn⟩ h
    subst hb
    simp only [setGlobal, h1, true_and]
    rcases h2.value _ ha with ⟨pre, k', v', post, w, e1, e2, e3, e4, e5⟩ | ⟨e1, _⟩
    · have : pre = [] ∧ (k', v') = (k, v) ∧ post = [] := by
        cases pre with
        | nil => simp at e1; simp [e1]
        | cons p pre => simp at e1
      obtain ⟨_, hkv, _⟩ := this
      cases hkv
      cases e4 with
      | plain _ _ => exact e5
      | standard _ h' _ => exact absurd h' hx
      | simple _ h' _ => exact absurd h' hx
      | unified _ h' _ => exact absurd h' hx
    · exact absurd hn (e1 (k, v) (by simp))
  · exfalso
    have : kv = (k, v) := by
      cases pre with
      | nil => simp at h2; simp [h2]
      | cons p pre => simp at h2
    exact hnb (this ▸ h5)

/-- **C49, accepted configurations.** `set_global_config` succeeds iff every key names a known parameter and every value stands for something;
then each parameter has the value of the last entry that names it, and all others keep theirs. -/
theorem c49_accepted (up : Str → Str) (g : Globals) (hg : PlainNames g) (cfg : PDict Str CVal) :
    ((setGlobal up g cfg).1 = .ok () ↔ (∀ kv ∈ cfg, Known up g kv.1) ∧ ∀ kv ∈ cfg, ¬ BadEntry up g kv) ∧
    ((setGlobal up g cfg).1 = .ok () → AppliedTo up g cfg (setGlobal up g cfg).2) := by
  rcases loop_char (up := up) g hg cfg false with ⟨b, g', h1, h2, h3, h4⟩ | ⟨g', pre, kv, post, h1, h2, h3, h4, h5⟩
  · cases b with
    | false =>
      simp only [setGlobal, h1, true_iff, forall_const]
      refine ⟨⟨fun kv hkv => ?_, h3⟩, h2⟩
      refine Classical.byContradiction fun hc => ?_
      have := h4.2 (.inr ⟨kv, hkv, hc⟩)
      cases this
    | true =>
      simp only [setGlobal, h1]
      obtain h | ⟨kv, hkv, h⟩ := h4.1 rfl
      · cases h
      · exact ⟨⟨nofun, fun e => absurd (e.1 kv hkv) h⟩, nofun⟩
  · simp only [setGlobal, h1]
    exact ⟨⟨nofun, fun e => absurd h5 (e.2 kv (by rw [h2]; simp))⟩, nofun⟩

/-- **C49, refused configurations.** An unknown key raises `KeyError` – unless a filter syntax that is no syntax is met, which raises
`AttributeError`. -/
theorem c49_refused (up : Str → Str) (g : Globals) (hg : PlainNames g) (cfg : PDict Str CVal) :
    ((setGlobal up g cfg).1 = .error .keyError ↔ (∃ kv ∈ cfg, ¬ Known up g kv.1) ∧ ∀ kv ∈ cfg, ¬ BadEntry up g kv) ∧
    ((setGlobal up g cfg).1 = .error .attributeError ↔ ∃ kv ∈ cfg, BadEntry up g kv) := by
  rcases loop_char (up := up) g hg cfg false with ⟨b, g', h1, h2, h3, h4⟩ | ⟨g', pre, kv, post, h1, h2, h3, h4, h5⟩
  · have hne : ¬ ∃ kv ∈ cfg, BadEntry up g kv := fun ⟨kv, hkv, h⟩ => h3 kv hkv h
    cases b with
    | false =>
      simp only [setGlobal, h1, hne, iff_false]
      refine ⟨⟨nofun, fun e => ?_⟩, nofun⟩
      have := h4.2 (.inr e.1)
      cases this
    | true =>
      simp only [setGlobal, h1, hne, iff_false, true_iff]
      refine ⟨⟨?_, h3⟩, nofun⟩
      obtain h | h := h4.1 rfl
      · cases h
      · exact h
  · have hex : ∃ kv ∈ cfg, BadEntry up g kv := ⟨kv, by rw [h2]; simp, h5⟩
    simp only [setGlobal, h1, hex]
    exact ⟨⟨nofun, fun e => absurd h5 (e.2 kv (by rw [h2]; simp))⟩, trivial⟩

/-- **C49, a refused configuration is not undone.** After `KeyError` all known entries have been applied; after `AttributeError` those before
the offending one. -/
theorem c49_refused_applied (up : Str → Str) (g : Globals) (hg : PlainNames g) (cfg : PDict Str CVal) :
    ((setGlobal up g cfg).1 = .error .keyError → AppliedTo up g cfg (setGlobal up g cfg).2) ∧
    ((setGlobal up g cfg).1 = .error .attributeError → ∃ pre kv post, cfg = pre ++ kv :: post ∧ BadEntry up g kv ∧
      (∀ kv ∈ pre, ¬ BadEntry up g kv) ∧ AppliedTo up g pre (setGlobal up g cfg).2) := by
  rcases loop_char (up := up) g hg cfg false with ⟨b, g', h1, h2, h3, h4⟩ | ⟨g', pre, kv, post, h1, h2, h3, h4, h5⟩
  · cases b <;> simp only [setGlobal, h1]
    · exact ⟨nofun, nofun⟩
    · exact ⟨fun _ => h2, nofun⟩
  · simp only [setGlobal, h1]
    exact ⟨nofun, fun _ => ⟨pre, kv, post, h2, h5, h4, h3⟩⟩

/-- the hypotheses hold of the library as shipped -/
theorem c49_shipped : PlainNames shipped := by
  intro attr ha
  have : ∀ a ∈ shipped.keys, str "DEFAULT_" = a.take 8 ∧ ¬ str "DEFAULT_" <+: a.drop 8 := by decide +kernel
  obtain ⟨h1, h2⟩ := this attr ha
  exact ⟨attr.drop 8, by rw [h1, List.take_append_drop], h2⟩

/-- an upper-casing that is right on ASCII -/
def exUp (s : Str) : Str := s.map Char.toUpper

example : UpperAscii exUp := fun _ _ => rfl

example : (setGlobal exUp shipped [(str "filter", .text (str "(cn=*)")), (str "Default_Filter_Syntax", .text (str "simple")),
      (str "DEFAULT_FILTER", .text (str "(sn=*)"))]).1 = .ok () ∧
    (setGlobal exUp shipped [(str "filter", .text (str "(cn=*)")), (str "Default_Filter_Syntax", .text (str "simple")),
      (str "DEFAULT_FILTER", .text (str "(sn=*)"))]).2.get? (str "DEFAULT_FILTER") = some (.text (str "(sn=*)")) := by
  decide +kernel

/-- a refused configuration that has changed a default -/
theorem c49_partly_applied : (setGlobal exUp shipped [(str "ssl_verify", .flag false), (str "bogus", .num 1)]).1 = .error .keyError ∧
    (setGlobal exUp shipped [(str "ssl_verify", .flag false), (str "bogus", .num 1)]).2.get? (str "DEFAULT_SSL_VERIFY") =
      some (.flag false) := by
  decide +kernel

/-! ### Settings of a connection -/

/-- **C49, documented defaults.** The class attribute a constructor parameter falls back to is the documented one, exists, and every shipped
default except the default filter belongs to a parameter. -/
theorem c49_documented : (∀ pd ∈ ctorParams, pd.2 = defaultOf pd.1 ∧ pd.2 ∈ shipped.keys) ∧ ctorParams.map Prod.fst = paramNames ∧
    ∀ a ∈ shipped.keys, a = str "DEFAULT_FILTER" ∨ ∃ p ∈ paramNames, a = defaultOf p := by
  refine ⟨?_, ?_, ?_⟩ <;> decide +kernel

/-- what the documentation gives as the default of each parameter of a connection (base.py:147-170; docs) -/
def documentedDefaults : List (Str × CVal) :=
  [(str "server", .text (str "ldap://localhost")), (str "base_dn", .none), (str "reuse_connection", .flag true), (str "connect_timeout", .num 5),
   (str "search_timeout", .num 0), (str "deref_aliases", .num 3), (str "strict_modify", .flag false), (str "ssl_verify", .flag true),
   (str "ssl_ca_file", .none), (str "ssl_ca_path", .none), (str "ssl_ca_data", .none), (str "fetch_result_refs", .flag true),
   (str "default_sasl_mech", .none), (str "sasl_fatal_downgrade_check", .flag true), (str "default_criticality", .flag false),
   (str "follow_referrals", .flag true), (str "validators", .none), (str "warn_empty_list", .flag false), (str "error_empty_list", .flag false),
   (str "ignore_empty_list", .flag true), (str "filter_syntax", .syn .unified), (str "built_in_extensions_only", .flag false)]

/-- **C49.** A parameter that is not given (or given as `None`) and not configured has its documented value – TLS certificates are verified, the
downgrade check is fatal – whatever else is given. -/
theorem c49_shipped_values (kw : PDict Str CVal) (p : Str) (v : CVal) (hp : (p, v) ∈ documentedDefaults) (hu : Unset (kw.get? p)) :
    (p, v) ∈ settings shipped kw := by
  have key : ∀ pv ∈ documentedDefaults, ∃ pd ∈ ctorParams, pd.1 = pv.1 ∧ (shipped.get? pd.2).getD .none = pv.2 := by decide +kernel
  obtain ⟨⟨q, d⟩, hm, rfl, hv⟩ := key _ hp
  simp only at hv
  unfold settings
  rw [List.mem_map]
  refine ⟨_, hm, ?_⟩
  simp only [Prod.mk.injEq, true_and] at hu ⊢
  unfold Unset at hu
  split at hu
  · rename_i h; simp only [h]; exact hv
  · rename_i w h; subst hu; simp only [h]; exact hv

example : (str "ssl_verify", CVal.flag true) ∈ settings shipped [(str "server", .text (str "ldaps://x")), (str "ssl_verify", .none)] :=
  c49_shipped_values _ _ _ (by decide) (by decide)

namespace CfgP

theorem truthy_iff (v : Option CVal) : (v.getD (.flag false)).truthy = true ↔ Yes v := by
  cases v with
  | none => simp [Yes, CVal.truthy]
  | some v => cases v <;> simp [Yes, CVal.truthy]

/-- the connection section without the three keys -/
def rest (conn : PDict Str CVal) : PDict Str CVal :=
  ((conn.erase (str "start_tls")).erase (str "simple_bind")).erase (str "sasl_bind")

theorem rest_get (conn : PDict Str CVal) (p : Str) (h : p ∉ [str "start_tls", str "simple_bind", str "sasl_bind"]) :
    (rest conn).get? p = conn.get? p := by
  simp only [List.mem_cons, List.not_mem_nil, or_false, not_or] at h
  unfold rest
  rw [PDict.get?_erase_ne _ _ _ h.2.2, PDict.get?_erase_ne _ _ _ h.2.1, PDict.get?_erase_ne _ _ _ h.1]

theorem rest_nodup (conn : PDict Str CVal) (hn : conn.keys.Nodup) : (rest conn).keys.Nodup :=
  PDict.nodup_erase _ _ (PDict.nodup_erase _ _ (PDict.nodup_erase _ _ hn))

theorem rest_none (conn : PDict Str CVal) (hn : conn.keys.Nodup) (p : Str) (h : p ∈ [str "start_tls", str "simple_bind", str "sasl_bind"]) :
    (rest conn).get? p = none := by
  have h1 := PDict.nodup_erase conn (str "start_tls") hn
  have h2 := PDict.nodup_erase _ (str "simple_bind") h1
  unfold rest
  rw [PDict.get?_erase _ _ _ h2, PDict.get?_erase _ _ _ h1, PDict.get?_erase _ _ _ hn]
  simp only [List.mem_cons, List.not_mem_nil, or_false] at h
  rcases h with rfl | rfl | rfl <;> simp

theorem rest_keys (conn : PDict Str CVal) (hn : conn.keys.Nodup) :
    (∀ k ∈ (rest conn).keys, k ∈ paramNames) ↔ ∀ k ∈ conn.keys, k ∈ paramNames ∨ k ∈ [str "start_tls", str "simple_bind", str "sasl_bind"] := by
  constructor
  · intro h k hk
    by_cases hp : k ∈ [str "start_tls", str "simple_bind", str "sasl_bind"]
    · exact .inr hp
    · refine .inl (h k ?_)
      rw [PDict.mem_keys_iff, rest_get conn k hp, ← PDict.mem_keys_iff]; exact hk
  · intro h k hk
    by_cases hp : k ∈ [str "start_tls", str "simple_bind", str "sasl_bind"]
    · rw [PDict.mem_keys_iff, rest_none conn hn k hp] at hk
      obtain ⟨_, hk⟩ := hk; cases hk
    · rw [PDict.mem_keys_iff, rest_get conn k hp, ← PDict.mem_keys_iff] at hk
      rcases h k hk with h | h
      · exact h
      · exact absurd h hp

/-- `createConnection`, with the popped values read from the original section -/
theorem cc_eq (up : Str → Str) (mk : Str → Except Err Nat) (env : Call → Except Err Unit) (g : Globals) (conn : PDict Str CVal)
    (objs : List (PDict Str CVal)) : createConnection up mk env g conn objs =
      let tls := (conn.get? (str "start_tls")).getD (.flag false)
      let simple := (conn.get? (str "simple_bind")).getD (.flag false)
      let sasl := (conn.get? (str "sasl_bind")).getD (.flag false)
      if simple.truthy && sasl.truthy then (.error .typeError, [], rest conn, objs)
      else
        match mapConn up mk (rest conn) with
        | (.error e, d) => (.error e, [], d, objs)
        | (.ok (), d) =>
          if d.all (fun kv => (ctorParams.map Prod.fst).contains kv.1) = false then (.error .typeError, [], d, objs)
          else
            match doCall env [] (.construct (settings g d)) with
            | (.error e, log) => (.error e, log, d, objs)
            | (.ok (), log) =>
              match (if tls.truthy then doCall env log .startTls else (.ok (), log)) with
              | (.error e, log) => (.error e, log, d, objs)
              | (.ok (), log) =>
                match (if simple.truthy then bindCall env log .simpleBind simple else (.ok (), log)) with
                | (.error e, log) => (.error e, log, d, objs)
                | (.ok (), log) =>
                  match (if sasl.truthy then bindCall env log .saslBind sasl else (.ok (), log)) with
                  | (.error e, log) => (.error e, log, d, objs)
                  | (.ok (), log) =>
                    let (r, log, objs') := createObjects env log objs
                    (r, log, d, objs') := by
  have e1 : (conn.erase (str "start_tls")).get? (str "simple_bind") = conn.get? (str "simple_bind") :=
    PDict.get?_erase_ne _ _ _ (by decide)
  have e2 : ((conn.erase (str "start_tls")).erase (str "simple_bind")).get? (str "sasl_bind") = conn.get? (str "sasl_bind") := by
    rw [PDict.get?_erase_ne _ _ _ (by decide), PDict.get?_erase_ne _ _ _ (by decide)]
  unfold createConnection popKey
  simp only [e1, e2]
  rfl

theorem keysOk_iff (d : PDict Str CVal) : d.all (fun kv => (ctorParams.map Prod.fst).contains kv.1) = true ↔ ∀ k ∈ d.keys, k ∈ paramNames := by
  rw [c49_documented.2.1]
  simp only [List.all_eq_true, List.contains_iff_mem, PDict.keys, List.mem_map]
  constructor
  · rintro h k ⟨kv, hkv, rfl⟩; exact h kv hkv
  · intro h kv hkv; exact h _ ⟨kv, hkv, rfl⟩

theorem validators_iff (mk : Str → Except Err Nat) (l l' : List VItem) : validatorMapper mk l = .ok l' ↔ Pairwise2 (ValidatorFor mk) l l' := by
  induction l generalizing l' with
  | nil =>
    simp only [validatorMapper]
    constructor
    · intro h; cases h; exact .nil
    · intro h; cases h; rfl
  | cons x l ih =>
    constructor
    · intro h
      cases x with
      | name s =>
        simp only [validatorMapper] at h
        cases hm : mk s with
        | error e => rw [hm] at h; cases h
        | ok n =>
          simp only [hm] at h
          cases hv : validatorMapper mk l with
          | error e => rw [hv] at h; cases h
          | ok r => simp only [hv] at h; cases h; exact .cons (.named s n hm) ((ih r).1 hv)
      | inst n =>
        simp only [validatorMapper] at h
        cases hv : validatorMapper mk l with
        | error e => rw [hv] at h; cases h
        | ok r => simp only [hv] at h; cases h; exact .cons (.given n) ((ih r).1 hv)
      | junk => simp only [validatorMapper] at h; cases h
    · intro h
      cases h with
      | cons h1 h2 =>
        have := (ih _).2 h2
        cases h1 with
        | named s n hm => simp only [validatorMapper, hm, this]
        | given n => simp only [validatorMapper, this]

theorem mapValidators_iff (mk : Str → Except Err Nat) (v w : CVal) : mapValidators mk v = .ok w ↔ ValidatorsArg mk (some v) (some w) := by
  constructor
  · intro h
    cases v with
    | vals l =>
      simp only [mapValidators] at h
      cases hv : validatorMapper mk l with
      | error e => rw [hv] at h; cases h
      | ok r => rw [hv] at h; cases h; exact .list l r ((validators_iff mk l r).1 hv)
    | text s =>
      cases s with
      | nil => cases h; exact .emptyText
      | cons c s => cases h
    | _ => cases h
  · intro h
    cases h with
    | list l l' h => simp only [mapValidators, (validators_iff mk l l').2 h]; rfl
    | emptyText => rfl

/-- the mappers, when there is no `default_filter_syntax` entry -/
theorem mapConn_ok (up : Str → Str) (mk : Str → Except Err Nat) (d d' : PDict Str CVal) (hd : d.get? (str "default_filter_syntax") = none) :
    mapConn up mk d = (.ok (), d') ↔ ∃ vals, ValidatorsArg mk (d.get? (str "validators")) vals ∧
      d' = (match vals with | none => d | some w => d.set (str "validators") w) := by
  unfold mapConn
  cases hv : d.get? (str "validators") with
  | none =>
    simp only [hd]
    constructor
    · intro h; cases h; exact ⟨none, .absent, rfl⟩
    · rintro ⟨vals, h, rfl⟩; cases h; rfl
  | some v =>
    simp only []
    cases hm : mapValidators mk v with
    | error e =>
      simp only []
      constructor
      · intro h; cases h
      · rintro ⟨vals, h, _⟩
        cases vals with
        | none => cases h
        | some w => rw [(mapValidators_iff mk v w).2 h] at hm; cases hm
    | ok w =>
      have hd' : (d.set (str "validators") w).get? (str "default_filter_syntax") = none := by
        rw [PDict.get?_set, if_neg (by decide)]; exact hd
      simp only [hd']
      constructor
      · intro h; cases h; exact ⟨some w, (mapValidators_iff mk v w).1 hm, rfl⟩
      · rintro ⟨vals, h, rfl⟩
        cases vals with
        | none => cases h
        | some w' =>
          rw [(mapValidators_iff mk v w').2 h] at hm
          cases hm; rfl

theorem mapConn_keys (up : Str → Str) (mk : Str → Except Err Nat) (d : PDict Str CVal) : (mapConn up mk d).2.keys = d.keys := by
  unfold mapConn
  have hs : ∀ (d : PDict Str CVal) (k : Str) (v w : CVal), d.get? k = some v → (d.set k w).keys = d.keys :=
    fun d k v w h => keys_set_mem d k w ((PDict.mem_keys_iff d k).2 ⟨v, h⟩)
  have step : ∀ d : PDict Str CVal, ((match d.get? (str "default_filter_syntax") with
      | .none => ((.ok (), d) : Except Err Unit × PDict Str CVal)
      | some v =>
        match filterSyntaxString up v with
        | .error e => (.error e, d)
        | .ok w => (.ok (), d.set (str "default_filter_syntax") w))).2.keys = d.keys := by
    intro d
    cases hf : d.get? (str "default_filter_syntax") with
    | none => rfl
    | some v =>
      simp only []
      cases filterSyntaxString up v with
      | error e => rfl
      | ok w => exact hs d _ v w hf
  cases hv : d.get? (str "validators") with
  | none => exact step d
  | some v =>
    simp only []
    cases mapValidators mk v with
    | error e => rfl
    | ok w => exact (step _).trans (hs d _ v w hv)

theorem settings_eq (g : Globals) (conn d : PDict Str CVal) (vals : Option CVal)
    (h : ∀ p ∈ paramNames, d.get? p = if p = str "validators" then vals else conn.get? p) : settings g d = settingsFrom g conn vals := by
  unfold settings settingsFrom
  rw [← c49_documented.2.1, List.map_map]
  apply List.map_congr_left
  rintro ⟨p, dn⟩ hp
  have hdoc := (c49_documented.1 (p, dn) hp).1
  have hin : p ∈ paramNames := by rw [← c49_documented.2.1]; exact List.mem_map.2 ⟨_, hp, rfl⟩
  simp only [] at hdoc
  subst hdoc
  simp only [Function.comp, ← h p hin]
  congr 1
  cases hg : d.get? p with
  | none => rfl
  | some v => cases v <;> rfl

theorem scopeWord_iff (s : Str) (x : Scope) : scopeOfString s = .ok x ↔ ScopeWord s x := by
  unfold scopeOfString asciiLower
  constructor
  · intro h
    simp only [] at h
    split at h
    · cases h; exact .base s (by assumption)
    · split at h
      · cases h; exact .one s (by assumption)
      · split at h
        · cases h; exact .sub s (by assumption)
        · cases h
  · intro h
    cases h with
    | base h => simp [h]
    | one h => simp [h]
    | sub h => simp [h]

/-- the scope step of `createObject` -/
def scopeStep (d : PDict Str CVal) : Except Err (PDict Str CVal) :=
  match d.get? (str "relative_search_scope") with
  | .none => .ok d
  | some (.text s) =>
    match scopeOfString s with
    | .error e => .error e
    | .ok x => .ok (d.set (str "relative_search_scope") (.scope x))
  | some _ => .error .attributeError

theorem scopeStep_iff (d d' : PDict Str CVal) : scopeStep d = .ok d' ↔ ScopeRead d d' := by
  unfold scopeStep
  constructor
  · intro h
    split at h
    · cases h; exact .none (by assumption)
    · split at h
      · cases h
      · rename_i _ s hs _ x hx
        cases h; exact .word s x hs ((scopeWord_iff s x).1 hx)
    · cases h
  · intro h
    cases h with
    | none h => simp only [h]
    | word s x h hx => simp only [h, (scopeWord_iff s x).2 hx]

theorem createObject_eq (env : Call → Except Err Unit) (log : List Call) (d : PDict Str CVal) : createObject env log d =
    if (d.get? (str "rdn")).isSome && (d.get? (str "dn")).isSome then (.error .typeError, log, d)
    else if !((d.get? (str "rdn")).isSome || (d.get? (str "dn")).isSome) then (.error .typeError, log, d)
    else
      match scopeStep d with
      | .error e => (.error e, log, d)
      | .ok d' =>
        if (d'.get? (str "tag")).isSome then (env (.obj (d.get? (str "rdn")).isSome d'), log ++ [.obj (d.get? (str "rdn")).isSome d'], d')
        else (.error .typeError, log, d') := rfl

theorem scopeRead_tag (d d' : PDict Str CVal) (h : ScopeRead d d') (k : Str) (hk : k ≠ str "relative_search_scope") : d'.get? k = d.get? k := by
  cases h with
  | none _ => rfl
  | word s x _ _ => rw [PDict.get?_set, if_neg hk]

theorem createObject_ok (env : Call → Except Err Unit) (log : List Call) (d : PDict Str CVal) (L : List Call) :
    (∃ d', createObject env log d = (.ok (), L, d')) ↔ ∃ c, ObjectCall d c ∧ env c = .ok () ∧ L = log ++ [c] := by
  rw [createObject_eq]
  constructor
  · rintro ⟨d', h⟩
    split at h
    · cases h
    · rename_i h1
      split at h
      · cases h
      · rename_i h2
        split at h
        · cases h
        · rename_i d'' hs
          have hs' := (scopeStep_iff d d'').1 hs
          split at h
          · rename_i ht
            rw [scopeRead_tag d d'' hs' (str "tag") (by decide)] at ht
            simp only [Prod.mk.injEq] at h
            obtain ⟨h3, h4, _⟩ := h
            refine ⟨_, ?_, h3, h4.symm⟩
            cases hr : d.get? (str "rdn") with
            | none =>
              refine .absolute d'' ?_ hr ht hs'
              cases hdn : d.get? (str "dn") with
              | none => simp [hr, hdn] at h2
              | some v => rfl
            | some v =>
              refine .relative d'' (by rw [hr]; rfl) ?_ ht hs'
              simpa [hr] using h1
          · cases h
  · rintro ⟨c, hc, he, rfl⟩
    cases hc with
    | relative d' h1 h2 h3 h4 =>
      rw [if_neg (by simp [h2]), if_neg (by simp [h1]), (scopeStep_iff d d').2 h4]
      simp only []
      rw [if_pos (by rw [scopeRead_tag d d' h4 (str "tag") (by decide)]; exact h3), h1, he]
      exact ⟨_, rfl⟩
    | absolute d' h1 h2 h3 h4 =>
      rw [if_neg (by simp [h2]), if_neg (by simp [h1]), (scopeStep_iff d d').2 h4]
      simp only []
      rw [if_pos (by rw [scopeRead_tag d d' h4 (str "tag") (by decide)]; exact h3), h2]
      simp only [Option.isSome_none, he]
      exact ⟨_, rfl⟩

theorem createObjects_ok (env : Call → Except Err Unit) (objs : List (PDict Str CVal)) (log L : List Call) :
    (∃ o', createObjects env log objs = (.ok (), L, o')) ↔ ∃ os, Pairwise2 ObjectCall objs os ∧ (∀ c ∈ os, env c = .ok ()) ∧ L = log ++ os := by
  induction objs generalizing log with
  | nil =>
    simp only [createObjects]
    constructor
    · rintro ⟨o', h⟩; cases h; exact ⟨[], .nil, by simp, by simp⟩
    · rintro ⟨os, h, _, rfl⟩; cases h; exact ⟨[], by simp⟩
  | cons d ds ih =>
    simp only [createObjects]
    constructor
    · rintro ⟨o', h⟩
      cases hc : createObject env log d with
      | mk r p =>
        obtain ⟨log1, d1⟩ := p
        rw [hc] at h
        cases r with
        | error e => cases h
        | ok u =>
          obtain ⟨c, hc1, hc2, hc3⟩ := (createObject_ok env log d log1).1 ⟨d1, hc⟩
          simp only [] at h
          cases ho : createObjects env log1 ds with
          | mk r2 p2 =>
            obtain ⟨log2, ds2⟩ := p2
            rw [ho] at h
            simp only [Prod.mk.injEq] at h
            obtain ⟨h1, h2, _⟩ := h
            subst h1 h2
            obtain ⟨os, g1, g2, g3⟩ := (ih log1).1 ⟨ds2, ho⟩
            refine ⟨c :: os, .cons hc1 g1, ?_, by rw [g3, hc3]; simp⟩
            intro x hx
            rcases List.mem_cons.1 hx with rfl | hx
            · exact hc2
            · exact g2 x hx
    · rintro ⟨os, h, he, rfl⟩
      cases h with
      | cons h1 h2 =>
        rename_i c os
        obtain ⟨d1, hd1⟩ := (createObject_ok env log d (log ++ [c])).2 ⟨c, h1, he c (by simp), rfl⟩
        obtain ⟨o', ho⟩ := (ih (log ++ [c])).2 ⟨os, h2, fun x hx => he x (by simp [hx]), by simp⟩
        rw [hd1]
        simp only [ho]
        exact ⟨d1 :: o', rfl⟩

theorem tls_iff (env : Call → Except Err Unit) (v : Option CVal) (log L : List Call) :
    (if (v.getD (.flag false)).truthy then doCall env log .startTls else (.ok (), log)) = (.ok (), L) ↔
      (Yes v ∧ env .startTls = .ok () ∧ L = log ++ [.startTls]) ∨ (¬ Yes v ∧ L = log) := by
  by_cases h : Yes v
  · rw [if_pos ((truthy_iff v).2 h)]
    simp [doCall, h, eq_comm]
  · rw [if_neg (fun e => h ((truthy_iff v).1 e))]
    simp [h, eq_comm]

theorem bind_iff (env : Call → Except Err Unit) (mkC : PDict Str Str → Call) (v : Option CVal) (log L : List Call) :
    (if (v.getD (.flag false)).truthy then bindCall env log mkC (v.getD (.flag false)) else (.ok (), log)) = (.ok (), L) ↔
      (∃ kw, v = some (.dict kw) ∧ kw ≠ [] ∧ env (mkC kw) = .ok () ∧ L = log ++ [mkC kw]) ∨ (¬ Yes v ∧ L = log) := by
  by_cases h : Yes v
  · rw [if_pos ((truthy_iff v).2 h)]
    cases v with
    | none => cases h
    | some w =>
      cases w with
      | dict kw =>
        simp only [Option.getD, bindCall, doCall, Prod.mk.injEq]
        constructor
        · rintro ⟨h1, h2⟩; exact .inl ⟨kw, rfl, h, h1, h2.symm⟩
        · rintro (⟨kw', e, _, h1, h2⟩ | ⟨h1, _⟩)
          · cases e; exact ⟨h1, h2.symm⟩
          · exact absurd h h1
      | _ => simp [bindCall, h]
  · rw [if_neg (fun e => h ((truthy_iff v).1 e))]
    constructor
    · intro e; simp only [Prod.mk.injEq, true_and] at e; exact .inr ⟨h, e.symm⟩
    · rintro (⟨kw, rfl, hk, _⟩ | ⟨_, rfl⟩)
      · exact absurd hk h
      · rfl

theorem yes_dict (v : Option CVal) (kw : PDict Str Str) (h : v = some (.dict kw)) (hk : kw ≠ []) : Yes v := by rw [h]; exact hk

end CfgP

/-- **C49, connecting.** `create_connection` succeeds iff the configuration can be carried out and every call in it succeeds; the calls are the
constructor with the configured settings (the defaults for the others), then StartTLS if asked for, then the bind, then the objects in order. -/
theorem c49_connect (up : Str → Str) (mk : Str → Except Err Nat) (env : Call → Except Err Unit) (g : Globals) (conn : PDict Str CVal)
    (objs : List (PDict Str CVal)) (hn : conn.keys.Nodup) (cs : List Call) :
    (createConnection up mk env g conn objs).1 = .ok () ∧ (createConnection up mk env g conn objs).2.1 = cs ↔
      Ideal mk g conn objs cs ∧ ∀ c ∈ cs, env c = .ok () := by
  have hrest : ∀ p ∈ paramNames, (rest conn).get? p = conn.get? p := fun p hp =>
    rest_get conn p (by revert p; decide +kernel)
  rw [cc_eq]
  simp only []
  by_cases hb : Yes (conn.get? (str "simple_bind")) ∧ Yes (conn.get? (str "sasl_bind"))
  · rw [if_pos (by rw [Bool.and_eq_true, truthy_iff, truthy_iff]; exact hb)]
    exact ⟨nofun, fun h => absurd hb h.1.oneBind⟩
  rw [if_neg (by rw [Bool.and_eq_true, truthy_iff, truthy_iff]; exact hb)]
  rcases (Classical.em (∀ k ∈ (rest conn).keys, k ∈ paramNames)).symm with hk | hk
  · have hk' : ∀ cs, ¬ Ideal mk g conn objs cs := fun cs h => hk ((rest_keys conn hn).2 h.keys)
    have hmk := mapConn_keys up mk (rest conn)
    generalize mapConn up mk (rest conn) = m at hmk
    obtain ⟨r, d⟩ := m
    simp only [] at hmk
    cases r with
    | error e => exact ⟨nofun, fun h => absurd h.1 (hk' cs)⟩
    | ok u =>
      simp only []
      rw [if_pos]
      · exact ⟨nofun, fun h => absurd h.1 (hk' cs)⟩
      · cases hall : d.all (fun kv => (ctorParams.map Prod.fst).contains kv.1) with
        | false => rfl
        | true => rw [keysOk_iff, hmk] at hall; exact absurd hall hk
  have hfs : (rest conn).get? (str "default_filter_syntax") = none := by
    rw [PDict.get?_none_iff]
    intro h
    exact absurd (hk _ h) (by decide +kernel)
  have hmk := mapConn_keys up mk (rest conn)
  have hmok := fun d' => mapConn_ok up mk (rest conn) d' hfs
  rw [hrest (str "validators") (by decide +kernel)] at hmok
  generalize mapConn up mk (rest conn) = m at hmk hmok
  obtain ⟨r, d⟩ := m
  simp only [] at hmk
  cases r with
  | error e =>
    refine ⟨nofun, ?_⟩
    rintro ⟨h, _⟩
    obtain ⟨vals, _, _, _, hv, _⟩ := h.calls
    have := (hmok _).2 ⟨vals, hv, rfl⟩
    cases this
  | ok u =>
    obtain ⟨vals, hv, hd⟩ := (hmok d).1 rfl
    have hset : settings g d = settingsFrom g conn vals := by
      apply settings_eq
      intro p hp
      rw [hd]
      cases vals with
      | none =>
        simp only []
        rw [hrest p hp]
        split
        · rename_i e
          subst e
          cases hc : conn.get? (str "validators") with
          | none => rfl
          | some w => rw [hc] at hv; cases hv
        · rfl
      | some w =>
        simp only []
        rw [PDict.get?_set, hrest p hp]
    have huniq : ∀ vals', ValidatorsArg mk (conn.get? (str "validators")) vals' → vals' = vals := by
      intro vals' hv'
      have h1 := (hmok _).2 ⟨vals', hv', rfl⟩
      have e := (Prod.mk.inj h1).2
      rw [hd] at e
      cases vals with
      | none =>
        cases vals' with
        | none => rfl
        | some w' => generalize conn.get? (str "validators") = z at hv hv'; cases hv; cases hv'
      | some w =>
        cases vals' with
        | none => generalize conn.get? (str "validators") = z at hv hv'; cases hv'; cases hv
        | some w' =>
          have := congrArg (fun x => PDict.get? x (str "validators")) e
          simpa [PDict.get?_set] using this.symm
    simp only []
    rw [if_neg (by rw [Bool.not_eq_false, keysOk_iff, hmk]; exact hk), hset]
    have hkeys := (rest_keys conn hn).1 hk
    simp only [doCall, List.nil_append]
    cases he : env (.construct (settingsFrom g conn vals)) with
    | error e =>
      refine ⟨nofun, ?_⟩
      rintro ⟨h, h'⟩
      obtain ⟨vals', _, _, _, hv', rfl, _⟩ := h.calls
      rw [huniq vals' hv'] at h'
      have := h' _ (List.mem_append_left _ (List.mem_append_left _ (List.mem_cons_self ..)))
      rw [he] at this; cases this
    | ok u =>
      simp only []
      have h1 := fun L => tls_iff env (conn.get? (str "start_tls")) [.construct (settingsFrom g conn vals)] L
      simp only [doCall] at h1
      generalize (if ((conn.get? (str "start_tls")).getD (.flag false)).truthy then
        (env .startTls, [.construct (settingsFrom g conn vals)] ++ [.startTls]) else
          ((.ok (), [.construct (settingsFrom g conn vals)]) : Except Err Unit × List Call)) = X1 at h1 ⊢
      obtain ⟨r1, L1⟩ := X1
      cases r1 with
      | error e =>
        refine ⟨nofun, ?_⟩
        rintro ⟨h, h'⟩
        obtain ⟨vals', tls, bind, os, hv', rfl, ht, _⟩ := h.calls
        rcases ht with ⟨hy, rfl⟩ | ⟨hy, rfl⟩
        · have := (h1 _).2 (.inl ⟨hy, h' _ (by simp), rfl⟩); cases this
        · have := (h1 _).2 (.inr ⟨hy, rfl⟩); cases this
      | ok u1 =>
        simp only []
        have h1' := (h1 L1).1 rfl
        have h2 := fun L => bind_iff env .simpleBind (conn.get? (str "simple_bind")) L1 L
        generalize (if ((conn.get? (str "simple_bind")).getD (.flag false)).truthy then
          bindCall env L1 .simpleBind ((conn.get? (str "simple_bind")).getD (.flag false)) else
          ((.ok (), L1) : Except Err Unit × List Call)) = X2 at h2 ⊢
        obtain ⟨r2, L2⟩ := X2
        cases r2 with
        | error e =>
          refine ⟨nofun, ?_⟩
          rintro ⟨h, h'⟩
          obtain ⟨vals', tls, bind, os, hv', rfl, _, hbd, _⟩ := h.calls
          rcases hbd with ⟨kw, e1, e2, rfl⟩ | ⟨kw, e1, e2, rfl⟩ | ⟨e1, e2, rfl⟩
          · have := (h2 _).2 (.inl ⟨kw, e1, e2, h' _ (by simp), rfl⟩); cases this
          · have hs : ¬ Yes (conn.get? (str "simple_bind")) := fun hs => h.oneBind ⟨hs, yes_dict _ kw e1 e2⟩
            have := (h2 _).2 (.inr ⟨hs, rfl⟩); cases this
          · have := (h2 _).2 (.inr ⟨e1, rfl⟩); cases this
        | ok u2 =>
          simp only []
          have h2' := (h2 L2).1 rfl
          have h3 := fun L => bind_iff env .saslBind (conn.get? (str "sasl_bind")) L2 L
          generalize (if ((conn.get? (str "sasl_bind")).getD (.flag false)).truthy then
            bindCall env L2 .saslBind ((conn.get? (str "sasl_bind")).getD (.flag false)) else
            ((.ok (), L2) : Except Err Unit × List Call)) = X3 at h3 ⊢
          obtain ⟨r3, L3⟩ := X3
          cases r3 with
          | error e =>
            refine ⟨nofun, ?_⟩
            rintro ⟨h, h'⟩
            obtain ⟨vals', tls, bind, os, hv', rfl, _, hbd, _⟩ := h.calls
            rcases hbd with ⟨kw, e1, e2, rfl⟩ | ⟨kw, e1, e2, rfl⟩ | ⟨e1, e2, rfl⟩
            · have hs : ¬ Yes (conn.get? (str "sasl_bind")) := fun hs => h.oneBind ⟨yes_dict _ kw e1 e2, hs⟩
              have := (h3 _).2 (.inr ⟨hs, rfl⟩); cases this
            · have := (h3 _).2 (.inl ⟨kw, e1, e2, h' _ (by simp), rfl⟩); cases this
            · have := (h3 _).2 (.inr ⟨e2, rfl⟩); cases this
          | ok u3 =>
            simp only []
            have h3' := (h3 L3).1 rfl
            have h4 := fun L => createObjects_ok env objs L3 L
            have key : (∃ tls bind, L3 = .construct (settingsFrom g conn vals) :: tls ++ bind ∧
                ((Yes (conn.get? (str "start_tls")) ∧ tls = [.startTls]) ∨ (¬ Yes (conn.get? (str "start_tls")) ∧ tls = [])) ∧
                ((∃ kw, conn.get? (str "simple_bind") = some (.dict kw) ∧ kw ≠ [] ∧ bind = [.simpleBind kw]) ∨
                 (∃ kw, conn.get? (str "sasl_bind") = some (.dict kw) ∧ kw ≠ [] ∧ bind = [.saslBind kw]) ∨
                 (¬ Yes (conn.get? (str "simple_bind")) ∧ ¬ Yes (conn.get? (str "sasl_bind")) ∧ bind = []))) ∧
                ∀ c ∈ L3, env c = .ok () := by
              rcases h1' with ⟨a1, a2, rfl⟩ | ⟨a1, rfl⟩ <;> rcases h2' with ⟨kw, b1, b2, b3, rfl⟩ | ⟨b1, rfl⟩ <;>
                rcases h3' with ⟨kw', c1, c2, c3, rfl⟩ | ⟨c1, rfl⟩
              · exact absurd ⟨yes_dict _ kw b1 b2, yes_dict _ kw' c1 c2⟩ hb
              · exact ⟨⟨[.startTls], [.simpleBind kw], by simp, .inl ⟨a1, rfl⟩, .inl ⟨kw, b1, b2, rfl⟩⟩, by simp [a2, b3, he]⟩
              · exact ⟨⟨[.startTls], [.saslBind kw'], by simp, .inl ⟨a1, rfl⟩, .inr (.inl ⟨kw', c1, c2, rfl⟩)⟩, by simp [a2, c3, he]⟩
              · exact ⟨⟨[.startTls], [], by simp, .inl ⟨a1, rfl⟩, .inr (.inr ⟨b1, c1, rfl⟩)⟩, by simp [a2, he]⟩
              · exact absurd ⟨yes_dict _ kw b1 b2, yes_dict _ kw' c1 c2⟩ hb
              · exact ⟨⟨[], [.simpleBind kw], by simp, .inr ⟨a1, rfl⟩, .inl ⟨kw, b1, b2, rfl⟩⟩, by simp [b3, he]⟩
              · exact ⟨⟨[], [.saslBind kw'], by simp, .inr ⟨a1, rfl⟩, .inr (.inl ⟨kw', c1, c2, rfl⟩)⟩, by simp [c3, he]⟩
              · exact ⟨⟨[], [], by simp, .inr ⟨a1, rfl⟩, .inr (.inr ⟨b1, c1, rfl⟩)⟩, by simp [he]⟩
            obtain ⟨⟨tls, bind, hL3, ht, hbd⟩, hok⟩ := key
            have hfun : ∀ vals' tls' bind' os', ValidatorsArg mk (conn.get? (str "validators")) vals' →
                ((Yes (conn.get? (str "start_tls")) ∧ tls' = [.startTls]) ∨ (¬ Yes (conn.get? (str "start_tls")) ∧ tls' = [])) →
                ((∃ kw, conn.get? (str "simple_bind") = some (.dict kw) ∧ kw ≠ [] ∧ bind' = [.simpleBind kw]) ∨
                 (∃ kw, conn.get? (str "sasl_bind") = some (.dict kw) ∧ kw ≠ [] ∧ bind' = [.saslBind kw]) ∨
                 (¬ Yes (conn.get? (str "simple_bind")) ∧ ¬ Yes (conn.get? (str "sasl_bind")) ∧ bind' = [])) →
                (.construct (settingsFrom g conn vals') :: tls' ++ bind' ++ os' : List Call) = L3 ++ os' := by
              intro vals' tls' bind' os' q1 q2 q3
              rw [hL3, huniq vals' q1]
              have e1 : tls' = tls := by grind
              have e2 : bind' = bind := by
                have hy1 : ∀ kw, conn.get? (str "simple_bind") = some (.dict kw) → kw ≠ [] → Yes (conn.get? (str "simple_bind")) :=
                  fun kw => yes_dict _ kw
                have hy2 : ∀ kw, conn.get? (str "sasl_bind") = some (.dict kw) → kw ≠ [] → Yes (conn.get? (str "sasl_bind")) :=
                  fun kw => yes_dict _ kw
                generalize Yes (conn.get? (str "simple_bind")) = y1 at *
                generalize Yes (conn.get? (str "sasl_bind")) = y2 at *
                grind
              rw [e1, e2]
            cases ho : createObjects env L3 objs with
            | mk r4 p4 =>
              obtain ⟨L4, o4⟩ := p4
              simp only []
              constructor
              · rintro ⟨rfl, rfl⟩
                obtain ⟨os, g1, g2, g3⟩ := (h4 L4).1 ⟨o4, ho⟩
                refine ⟨⟨hb, hkeys, vals, tls, bind, os, hv, by rw [g3, hL3], ht, hbd, g1⟩, ?_⟩
                rw [g3]
                intro c hc
                rcases List.mem_append.1 hc with hc | hc
                · exact hok c hc
                · exact g2 c hc
              · rintro ⟨h, h'⟩
                obtain ⟨vals', tls', bind', os', hv', rfl, q2, q3, q4⟩ := h.calls
                have e := hfun vals' tls' bind' os' hv' q2 q3
                obtain ⟨o', ho'⟩ := (h4 _).2 ⟨os', q4, fun c hc => h' c (List.mem_append_right _ hc), e⟩
                rw [ho] at ho'
                cases ho'
                exact ⟨rfl, rfl⟩

namespace CfgP

theorem createObject_log (env : Call → Except Err Unit) (log : List Call) (d : PDict Str CVal) :
    ∃ os, (createObject env log d).2.1 = log ++ os ∧ ∀ c ∈ os, ∃ r d', c = .obj r d' := by
  rw [createObject_eq]
  split
  · exact ⟨[], by simp, by simp⟩
  · split
    · exact ⟨[], by simp, by simp⟩
    · split
      · exact ⟨[], by simp, by simp⟩
      · split
        · exact ⟨[_], rfl, fun c hc => by simp only [List.mem_singleton] at hc; exact ⟨_, _, hc⟩⟩
        · exact ⟨[], by simp, by simp⟩

theorem createObjects_log (env : Call → Except Err Unit) (objs : List (PDict Str CVal)) (log : List Call) :
    ∃ os, (createObjects env log objs).2.1 = log ++ os ∧ ∀ c ∈ os, ∃ r d', c = .obj r d' := by
  induction objs generalizing log with
  | nil => exact ⟨[], by simp [createObjects], by simp⟩
  | cons d ds ih =>
    simp only [createObjects]
    obtain ⟨os, h1, h2⟩ := createObject_log env log d
    generalize createObject env log d = X at h1
    obtain ⟨r, L, d'⟩ := X
    simp only [] at h1
    subst h1
    cases r with
    | error e => exact ⟨os, rfl, h2⟩
    | ok u =>
      obtain ⟨os', h3, h4⟩ := ih (log ++ os)
      refine ⟨os ++ os', ?_, ?_⟩
      · simp only [h3, List.append_assoc]
      · intro c hc
        rcases List.mem_append.1 hc with hc | hc
        · exact h2 c hc
        · exact h4 c hc

/-- the shape of the calls, whatever the outcome, and the keys of the section afterwards -/
theorem trace (up : Str → Str) (mk : Str → Except Err Nat) (env : Call → Except Err Unit) (g : Globals) (conn : PDict Str CVal)
    (objs : List (PDict Str CVal)) :
    (∃ a t b o, (createConnection up mk env g conn objs).2.1 = a ++ t ++ b ++ o ∧ (∀ c ∈ a, ∃ s, c = .construct s) ∧
      (t = [] ∨ (Yes (conn.get? (str "start_tls")) ∧ t = [.startTls])) ∧
      (b ≠ [] → Yes (conn.get? (str "simple_bind")) ∨ Yes (conn.get? (str "sasl_bind"))) ∧
      (∀ c ∈ o, ∃ r d, c = .obj r d) ∧
      (b ≠ [] → Yes (conn.get? (str "start_tls")) → t = [.startTls] ∧ env .startTls = .ok ())) ∧
    (createConnection up mk env g conn objs).2.2.1.keys = (rest conn).keys := by
  rw [cc_eq]
  simp only []
  split
  · exact ⟨⟨[], [], [], [], rfl, by simp, .inl rfl, by simp, by simp, by simp⟩, rfl⟩
  · have hmk := mapConn_keys up mk (rest conn)
    generalize mapConn up mk (rest conn) = m at hmk
    obtain ⟨r, d⟩ := m
    simp only [] at hmk
    cases r with
    | error e => exact ⟨⟨[], [], [], [], rfl, by simp, .inl rfl, by simp, by simp, by simp⟩, hmk⟩
    | ok u =>
      simp only []
      split
      · exact ⟨⟨[], [], [], [], rfl, by simp, .inl rfl, by simp, by simp, by simp⟩, hmk⟩
      · simp only [doCall, List.nil_append]
        cases env (.construct (settings g d)) with
        | error e => exact ⟨⟨[.construct (settings g d)], [], [], [], rfl, by simp, .inl rfl, by simp, by simp, by simp⟩, hmk⟩
        | ok u =>
          simp only []
          have ht : ∃ t, (if ((conn.get? (str "start_tls")).getD (.flag false)).truthy then
              (env .startTls, [.construct (settings g d)] ++ [.startTls]) else
              ((.ok (), [.construct (settings g d)]) : Except Err Unit × List Call)).2 = [.construct (settings g d)] ++ t ∧
              (t = [] ∨ (Yes (conn.get? (str "start_tls")) ∧ t = [.startTls])) ∧
              ((if ((conn.get? (str "start_tls")).getD (.flag false)).truthy then
              (env .startTls, [.construct (settings g d)] ++ [.startTls]) else
              ((.ok (), [.construct (settings g d)]) : Except Err Unit × List Call)).1 = .ok () → Yes (conn.get? (str "start_tls")) →
                t = [.startTls] ∧ env .startTls = .ok ()) := by
            by_cases hy : Yes (conn.get? (str "start_tls"))
            · rw [if_pos ((truthy_iff _).2 hy)]
              exact ⟨[.startTls], rfl, .inr ⟨hy, rfl⟩, fun h _ => ⟨rfl, h⟩⟩
            · rw [if_neg (fun e => hy ((truthy_iff _).1 e))]
              exact ⟨[], by simp, .inl rfl, fun _ h => absurd h hy⟩
          generalize (if ((conn.get? (str "start_tls")).getD (.flag false)).truthy then
              (env .startTls, [.construct (settings g d)] ++ [.startTls]) else
              ((.ok (), [.construct (settings g d)]) : Except Err Unit × List Call)) = X1 at ht ⊢
          obtain ⟨r1, L1⟩ := X1
          obtain ⟨t, e1, e2, e3⟩ := ht
          simp only [] at e1 e3
          subst e1
          cases r1 with
          | error e => exact ⟨⟨[.construct (settings g d)], t, [], [], by simp, by simp, e2, by simp, by simp, by simp⟩, hmk⟩
          | ok u1 =>
            have e3 := e3 rfl
            simp only []
            have hbind : ∀ (v : Option CVal) (mkC : PDict Str Str → Call) (L : List Call), ∃ b,
                (if (v.getD (.flag false)).truthy then bindCall env L mkC (v.getD (.flag false)) else
                  ((.ok (), L) : Except Err Unit × List Call)).2 = L ++ b ∧ (b ≠ [] → Yes v) := by
              intro v mkC L
              by_cases hy : Yes v
              · rw [if_pos ((truthy_iff _).2 hy)]
                unfold bindCall
                split
                · exact ⟨[_], rfl, fun _ => hy⟩
                · exact ⟨[], by simp, by simp⟩
              · rw [if_neg (fun e => hy ((truthy_iff _).1 e))]
                exact ⟨[], by simp, by simp⟩
            obtain ⟨b1, f1, f2⟩ := hbind (conn.get? (str "simple_bind")) .simpleBind ([.construct (settings g d)] ++ t)
            generalize (if ((conn.get? (str "simple_bind")).getD (.flag false)).truthy then
              bindCall env ([.construct (settings g d)] ++ t) .simpleBind ((conn.get? (str "simple_bind")).getD (.flag false)) else
              ((.ok (), [.construct (settings g d)] ++ t) : Except Err Unit × List Call)) = X2 at f1 ⊢
            obtain ⟨r2, L2⟩ := X2
            simp only [] at f1
            subst f1
            cases r2 with
            | error e =>
              exact ⟨⟨[.construct (settings g d)], t, b1, [], by simp, by simp, e2, fun h => .inl (f2 h), by simp, fun _ => e3⟩, hmk⟩
            | ok u2 =>
              simp only []
              obtain ⟨b2, g1, g2⟩ := hbind (conn.get? (str "sasl_bind")) .saslBind ([.construct (settings g d)] ++ t ++ b1)
              generalize (if ((conn.get? (str "sasl_bind")).getD (.flag false)).truthy then
                bindCall env ([.construct (settings g d)] ++ t ++ b1) .saslBind ((conn.get? (str "sasl_bind")).getD (.flag false)) else
                ((.ok (), [.construct (settings g d)] ++ t ++ b1) : Except Err Unit × List Call)) = X3 at g1 ⊢
              obtain ⟨r3, L3⟩ := X3
              simp only [] at g1
              subst g1
              have hb : b1 ++ b2 ≠ [] → Yes (conn.get? (str "simple_bind")) ∨ Yes (conn.get? (str "sasl_bind")) := by
                intro h
                cases b1 with
                | nil => exact .inr (g2 h)
                | cons x b1 => exact .inl (f2 (by simp))
              cases r3 with
              | error e =>
                exact ⟨⟨[.construct (settings g d)], t, b1 ++ b2, [], by simp, by simp, e2, hb, by simp, fun _ => e3⟩, hmk⟩
              | ok u3 =>
                simp only []
                obtain ⟨o, k1, k2⟩ := createObjects_log env objs ([.construct (settings g d)] ++ t ++ b1 ++ b2)
                exact ⟨⟨[.construct (settings g d)], t, b1 ++ b2, o, by rw [k1]; simp, by simp, e2, hb, k2, fun _ => e3⟩, hmk⟩

end CfgP

/-- **C49, StartTLS before credentials.** With `start_tls` configured, a bind is only ever attempted after StartTLS was performed and
succeeded – also when something fails on the way. -/
theorem c49_tls_before_bind (up : Str → Str) (mk : Str → Except Err Nat) (env : Call → Except Err Unit) (g : Globals) (conn : PDict Str CVal)
    (objs : List (PDict Str CVal)) (h : Yes (conn.get? (str "start_tls"))) (c : Call)
    (hc : c ∈ (createConnection up mk env g conn objs).2.1) (hb : isBind c) :
    env .startTls = .ok () ∧ ∃ pre post, (createConnection up mk env g conn objs).2.1 = pre ++ .startTls :: post ∧ c ∈ post := by
  obtain ⟨⟨a, t, b, o, h1, h2, h3, _, h5, h6⟩, _⟩ := trace up mk env g conn objs
  rw [h1] at hc ⊢
  have hcb : c ∈ b := by
    simp only [List.mem_append] at hc
    rcases hc with ((hc | hc) | hc) | hc
    · obtain ⟨s, rfl⟩ := h2 c hc; cases hb
    · rcases h3 with rfl | ⟨_, rfl⟩
      · cases hc
      · simp only [List.mem_singleton] at hc; subst hc; cases hb
    · exact hc
    · obtain ⟨_, _, rfl⟩ := h5 c hc; cases hb
  obtain ⟨ht, he⟩ := h6 (by rintro rfl; cases hcb) h
  refine ⟨he, a, b ++ o, by rw [ht]; simp, by simp [hcb]⟩

example : (createConnection exUp (fun _ => .ok 1) (fun c => if c = .startTls then .error .ldapError else .ok ()) shipped
      [(str "start_tls", .flag true), (str "simple_bind", .dict [(str "username", str "u")]), (str "server", .text (str "ldap://h"))] []).1 =
    .error .ldapError := by decide +kernel

/-- **C49, the second load fails.** Loading a configuration consumes `start_tls`, `simple_bind` and `sasl_bind`: whatever the
configuration and the outcome, loading the same dictionary again neither starts TLS nor binds. -/
theorem c49_second_load (up up' : Str → Str) (mk mk' : Str → Except Err Nat) (env env' : Call → Except Err Unit) (g g' : Globals)
    (conn : PDict Str CVal) (objs objs' : List (PDict Str CVal)) (hn : conn.keys.Nodup) (c : Call)
    (hc : c ∈ (createConnection up' mk' env' g' (createConnection up mk env g conn objs).2.2.1 objs').2.1) :
    c ≠ .startTls ∧ ¬ isBind c := by
  obtain ⟨_, hk⟩ := trace up mk env g conn objs
  generalize (createConnection up mk env g conn objs).2.2.1 = d at hk hc
  have hnone : ∀ p ∈ [str "start_tls", str "simple_bind", str "sasl_bind"], d.get? p = none := by
    intro p hp
    have := rest_none conn hn p hp
    rw [PDict.get?_none_iff] at this ⊢
    rw [hk]; exact this
  obtain ⟨⟨a, t, b, o, h1, h2, h3, h4, h5, h6⟩, _⟩ := trace up' mk' env' g' d objs'
  rw [hnone _ (by simp)] at h3
  rw [hnone (str "simple_bind") (by simp), hnone (str "sasl_bind") (by simp)] at h4
  have ht : t = [] := by
    rcases h3 with h | ⟨h, _⟩
    · exact h
    · cases h
  have hb : b = [] := by
    cases b with
    | nil => rfl
    | cons x b => rcases h4 (by simp) with h | h <;> cases h
  rw [h1, ht, hb] at hc
  simp only [List.append_nil, List.mem_append] at hc
  rcases hc with hc | hc
  · obtain ⟨s, rfl⟩ := h2 c hc; exact ⟨nofun, nofun⟩
  · obtain ⟨_, _, rfl⟩ := h5 c hc; exact ⟨nofun, nofun⟩

/-- a configuration whose second load silently connects in the clear and unauthenticated -/
example : let cfg : Cfg := { connection := some [(str "server", .text (str "ldap://h")), (str "start_tls", .flag true),
      (str "simple_bind", .dict [(str "username", str "u"), (str "password", str "p")])] }
    let one := load exUp (fun _ => .ok 1) (fun _ => .ok ()) shipped cfg
    let two := load exUp (fun _ => .ok 1) (fun _ => .ok ()) one.globals one.cfg
    one.result = .ok true ∧ one.calls.drop 1 = [.startTls, .simpleBind [(str "username", str "u"), (str "password", str "p")]] ∧
    two.result = .ok true ∧ two.calls.drop 1 = [] := by decide +kernel

/-- **C49, the documented `default_filter_syntax` entry never works:** a configuration holding it is refused without connecting. -/
theorem c49_default_filter_syntax (up : Str → Str) (mk : Str → Except Err Nat) (env : Call → Except Err Unit) (g : Globals)
    (conn : PDict Str CVal) (objs : List (PDict Str CVal)) (h : str "default_filter_syntax" ∈ conn.keys) :
    (∃ e, (createConnection up mk env g conn objs).1 = .error e) ∧ (createConnection up mk env g conn objs).2.1 = [] := by
  have hr : str "default_filter_syntax" ∈ (rest conn).keys := by
    rw [PDict.mem_keys_iff, rest_get conn _ (by decide), ← PDict.mem_keys_iff]; exact h
  rw [cc_eq]
  simp only []
  split
  · exact ⟨⟨_, rfl⟩, rfl⟩
  · have hmk := mapConn_keys up mk (rest conn)
    generalize mapConn up mk (rest conn) = m at hmk
    obtain ⟨r, d⟩ := m
    simp only [] at hmk
    cases r with
    | error e => exact ⟨⟨_, rfl⟩, rfl⟩
    | ok u =>
      simp only []
      rw [if_pos]
      · exact ⟨⟨_, rfl⟩, rfl⟩
      · cases hall : d.all (fun kv => (ctorParams.map Prod.fst).contains kv.1) with
        | false => rfl
        | true =>
          rw [keysOk_iff, hmk] at hall
          exact absurd (hall _ hr) (by decide +kernel)

/-- … and a word given for `filter_syntax`, which is passed as it is, makes every search with a filter raise. -/
theorem c49_filter_syntax_word {V R : Type} (g : Globals) (conn : PDict Str CVal) (s : Str) (h : conn.get? (str "filter_syntax") = some (.text s))
    (c : SearchConn V R) (hu : c.unbound = false)
    (hc : c.dfltSyntax = synOf (((settings g conn).find? (fun pv => pv.1 = str "filter_syntax")).map Prod.snd |>.getD .none))
    (a : SearchArgs V) (ha : a.fsyntax = none) (hf : a.filter ≠ none) : ldapSearch c a = .error .ldapError := by
  have hs : ((settings g conn).find? (fun pv => pv.1 = str "filter_syntax")).map Prod.snd = some (.text s) := by
    unfold settings
    rw [List.find?_map]
    have : (ctorParams.find? ((fun pv : Str × CVal => decide (pv.1 = str "filter_syntax")) ∘ fun (x : Str × Str) => (x.1, match conn.get? x.1 with
        | some .none | Option.none => (g.get? x.2).getD .none
        | some v => v))) = some (str "filter_syntax", str "DEFAULT_FILTER_SYNTAX") := by
      show (ctorParams.find? (fun x : Str × Str => decide (x.1 = str "filter_syntax"))) = _
      decide +kernel
    refine (congrArg (fun o => Option.map Prod.snd (Option.map _ o)) this).trans ?_
    simp only [Option.map_some, h]
  rw [hs] at hc
  simp only [Option.getD, synOf] at hc
  cases hfl : a.filter with
  | none => exact absurd hfl hf
  | some t => simp [ldapSearch, hu, hfl, ha, hc, parseFilter]

/-- **C49, extensions cannot be activated from a configuration:** a non-empty `extensions` section always raises, after the global section
was applied, and no connection is made. -/
theorem c49_extensions (up : Str → Str) (mk : Str → Except Err Nat) (env : Call → Except Err Unit) (g : Globals) (cfg : Cfg) (x : Str)
    (l : List Str) (h : cfg.extensions = some (x :: l)) (hg : cfg.global = none) :
    (load up mk env g cfg).result = .error .attributeError ∧ (load up mk env g cfg).calls = [] := by
  simp [load, globalStep, h, hg, activateExtensions]

namespace CfgP
variable {up : Str → Str}

theorem pdict_ext {V : Type} (a b : PDict Str V) (hk : a.keys = b.keys) (hn : a.keys.Nodup) (h : ∀ k ∈ a.keys, a.get? k = b.get? k) : a = b := by
  induction a generalizing b with
  | nil =>
    cases b with
    | nil => rfl
    | cons p b => simp [PDict.keys] at hk
  | cons p a ih =>
    cases b with
    | nil => simp [PDict.keys] at hk
    | cons q b =>
      obtain ⟨k, v⟩ := p
      obtain ⟨k', v'⟩ := q
      simp only [PDict.keys, List.map_cons, List.cons.injEq] at hk
      obtain ⟨rfl, hk⟩ := hk
      simp only [PDict.keys, List.map_cons, List.nodup_cons] at hn
      have h0 := h k (by simp [PDict.keys])
      simp only [PDict.get?, if_true, Option.some.injEq] at h0
      subst h0
      congr 1
      refine ih b hk hn.2 ?_
      intro x hx
      have hne : k ≠ x := by rintro rfl; exact hn.1 hx
      have := h x (by simp only [PDict.keys, List.map_cons, List.mem_cons]; exact .inr hx)
      simpa [PDict.get?, hne] using this

theorem denotes_det (attr : Str) (v w w' : CVal) (h : Denotes up attr v w) (h' : Denotes up attr v w') : w = w' := by
  rw [← mapper_ok] at h h'
  rw [h] at h'; exact Except.ok.inj h'

theorem split_last {α : Type} (P : α → Prop) (pre pre' post post' : List α) (a a' : α) (h : pre ++ a :: post = pre' ++ a' :: post')
    (ha : P a) (ha' : P a') (hp : ∀ x ∈ post, ¬ P x) (hp' : ∀ x ∈ post', ¬ P x) : a = a' ∧ pre = pre' := by
  induction pre generalizing pre' with
  | nil =>
    cases pre' with
    | nil => simp at h; exact ⟨h.1, rfl⟩
    | cons y pre' =>
      simp only [List.nil_append, List.cons_append, List.cons.injEq] at h
      exact absurd ha' (hp a' (by rw [h.2]; simp))
  | cons x pre ih =>
    cases pre' with
    | nil =>
      simp only [List.nil_append, List.cons_append, List.cons.injEq] at h
      exact absurd ha (hp' a (by rw [← h.2]; simp))
    | cons y pre' =>
      simp only [List.cons_append, List.cons.injEq] at h
      obtain ⟨rfl, h⟩ := h
      obtain ⟨h1, h2⟩ := ih pre' h
      exact ⟨h1, by rw [h2]⟩

theorem split_first {α : Type} (P : α → Prop) (pre pre' post post' : List α) (a a' : α) (h : pre ++ a :: post = pre' ++ a' :: post')
    (ha : P a) (ha' : P a') (hp : ∀ x ∈ pre, ¬ P x) (hp' : ∀ x ∈ pre', ¬ P x) : pre = pre' := by
  induction pre generalizing pre' with
  | nil =>
    cases pre' with
    | nil => rfl
    | cons y pre' =>
      simp only [List.nil_append, List.cons_append, List.cons.injEq] at h
      exact absurd (h.1 ▸ ha) (hp' y (by simp))
  | cons x pre ih =>
    cases pre' with
    | nil =>
      simp only [List.nil_append, List.cons_append, List.cons.injEq] at h
      exact absurd (h.1.symm ▸ ha') (hp x (by simp))
    | cons y pre' =>
      simp only [List.cons_append, List.cons.injEq] at h
      rw [h.1, ih pre' h.2 (fun x hx => hp x (by simp [hx])) (fun x hx => hp' x (by simp [hx]))]

theorem applied_twice (g g1 g2 : Globals) (hn : g.keys.Nodup) (cfg : PDict Str CVal) (h1 : AppliedTo up g cfg g1)
    (h2 : AppliedTo up g1 cfg g2) : g2 = g1 := by
  refine pdict_ext g2 g1 h2.same (by rw [h2.same, h1.same]; exact hn) ?_
  intro attr ha
  rw [h2.same] at ha
  rcases h2.value attr ha with ⟨pre, k, v, post, w, a1, a2, a3, a4, a5⟩ | ⟨a1, a2⟩
  · rcases h1.value attr (h1.same ▸ ha) with ⟨pre', k', v', post', w', b1, b2, b3, b4, b5⟩ | ⟨b1, _⟩
    · rw [a1] at b1
      obtain ⟨e, _⟩ := split_last (fun kv : Str × CVal => NamesSetting up kv.1 attr) _ _ _ _ _ _ b1 a2 b2 a3 b3
      cases e
      rw [a5, b5, denotes_det attr v w w' a4 b4]
    · exact absurd a2 (b1 (k, v) (by rw [a1]; simp))
  · exact a2

theorem setGlobal_twice (g : Globals) (hg : PlainNames g) (hn : g.keys.Nodup) (cfg : PDict Str CVal) :
    setGlobal up (setGlobal up g cfg).2 cfg = setGlobal up g cfg := by
  rcases loop_char (up := up) g hg cfg false with ⟨b, g1, h1, h2, h3, h4⟩ | ⟨g1, pre, kv, post, h1, h2, h3, h4, h5⟩
  · have hs : (setGlobal up g cfg).2 = g1 := by cases b <;> simp [setGlobal, h1]
    have hg1 := plain_congr g g1 h2.same hg
    rcases loop_char (up := up) g1 hg1 cfg false with ⟨b', g2, k1, k2, k3, k4⟩ | ⟨g2, pre', kv', post', k1, k2, k3, k4, k5⟩
    · have e : g2 = g1 := applied_twice g g1 g2 hn cfg h2 k2
      have eb : b' = b := by
        rw [Bool.eq_iff_iff, h4, k4]
        simp only [known_congr g g1 h2.same]
      rw [hs]
      simp only [setGlobal, h1, k1, e, eb]
    · rw [badE_congr g g1 h2.same] at k5
      exact absurd k5 (h3 kv' (by rw [k2]; simp))
  · have hs : (setGlobal up g cfg).2 = g1 := by simp [setGlobal, h1]
    have hg1 := plain_congr g g1 h3.same hg
    rcases loop_char (up := up) g1 hg1 cfg false with ⟨b', g2, k1, k2, k3, k4⟩ | ⟨g2, pre', kv', post', k1, k2, k3, k4, k5⟩
    · have := k3 kv (by rw [h2]; simp)
      rw [badE_congr g g1 h3.same] at this
      exact absurd h5 this
    · simp only [badE_congr g g1 h3.same] at k4 k5
      have hp : pre = pre' := split_first (BadEntry up g) pre pre' post post' kv kv' (h2.symm.trans k2) h5 k5 h4 k4
      subst hp
      have e : g2 = g1 := applied_twice g g1 g2 hn pre h3 k3
      rw [hs]
      simp only [setGlobal, h1, k1, e]

/-- a `validators` entry that is already a list of instances -/
def allInst : Option CVal → Prop
  | none => True
  | some (.vals l) => ∀ x ∈ l, ∃ n, x = .inst n
  | _ => False

theorem validatorMapper_inst (mk : Str → Except Err Nat) (l : List VItem) (h : ∀ x ∈ l, ∃ n, x = .inst n) : validatorMapper mk l = .ok l := by
  induction l with
  | nil => rfl
  | cons x l ih =>
    obtain ⟨n, rfl⟩ := h x (by simp)
    simp only [validatorMapper, ih (fun x hx => h x (by simp [hx]))]

theorem set_same {V : Type} (d : PDict Str V) (k : Str) (v : V) (h : d.get? k = some v) : d.set k v = d := by
  induction d with
  | nil => cases h
  | cons p d ih =>
    obtain ⟨a, w⟩ := p
    simp only [PDict.get?] at h
    simp only [PDict.set]
    split
    · rename_i hk; rw [if_pos hk] at h; cases h; rfl
    · rename_i hk; rw [if_neg hk] at h; rw [ih h]

theorem erase_absent {V : Type} (d : PDict Str V) (k : Str) (h : k ∉ d.keys) : d.erase k = d := by
  induction d with
  | nil => rfl
  | cons p d ih =>
    obtain ⟨a, w⟩ := p
    simp only [PDict.keys, List.map_cons, List.mem_cons, not_or] at h
    simp only [PDict.erase]
    rw [if_neg (fun e => h.1 e.symm), ih h.2]

theorem createObject_same (env : Call → Except Err Unit) (log : List Call) (d : PDict Str CVal)
    (h : d.get? (str "relative_search_scope") = none) : (createObject env log d).2.2 = d := by
  rw [createObject_eq]
  have : scopeStep d = .ok d := by simp only [scopeStep, h]
  rw [this]
  split
  · rfl
  · split
    · rfl
    · simp only []
      split <;> rfl

theorem createObjects_same (env : Call → Except Err Unit) (objs : List (PDict Str CVal)) (log : List Call)
    (h : ∀ d ∈ objs, d.get? (str "relative_search_scope") = none) : (createObjects env log objs).2.2 = objs := by
  induction objs generalizing log with
  | nil => rfl
  | cons d ds ih =>
    simp only [createObjects]
    have h1 := createObject_same env log d (h d (by simp))
    generalize createObject env log d = X at h1
    obtain ⟨r, L, d'⟩ := X
    simp only [] at h1
    subst h1
    cases r with
    | error e => rfl
    | ok u => simp only [ih L (fun d hd => h d (by simp [hd]))]

theorem createConnection_same (mk : Str → Except Err Nat) (env : Call → Except Err Unit) (g : Globals) (conn : PDict Str CVal)
    (objs : List (PDict Str CVal))
    (hk : ∀ k ∈ [str "start_tls", str "simple_bind", str "sasl_bind", str "default_filter_syntax"], k ∉ conn.keys)
    (hv : allInst (conn.get? (str "validators"))) (ho : ∀ d ∈ objs, d.get? (str "relative_search_scope") = none) :
    (createConnection up mk env g conn objs).2.2 = (conn, objs) := by
  have hr : rest conn = conn := by
    unfold rest
    have e1 : conn.erase (str "start_tls") = conn := erase_absent _ _ (hk _ (by simp))
    have e2 : conn.erase (str "simple_bind") = conn := erase_absent _ _ (hk _ (by simp))
    have e3 : conn.erase (str "sasl_bind") = conn := erase_absent _ _ (hk _ (by simp))
    rw [e1, e2, e3]
  have hd : conn.get? (str "default_filter_syntax") = none := (PDict.get?_none_iff _ _).2 (hk _ (by simp))
  have hm : mapConn up mk conn = (.ok (), conn) := by
    unfold mapConn
    cases hc : conn.get? (str "validators") with
    | none => simp only [hd]
    | some v =>
      rw [hc] at hv
      cases v with
      | vals l =>
        simp only [mapValidators, validatorMapper_inst mk l hv, Except.map]
        rw [set_same _ _ _ hc]
        simp only [hd]
      | _ => cases hv
  rw [cc_eq]
  simp only [hr, hm]
  split
  · rfl
  · split
    · rfl
    · split
      · rfl
      · split
        · rfl
        · split
          · rfl
          · split
            · rfl
            · simp only [createObjects_same env objs _ ho]

end CfgP

/-- **C49 (partial), loading twice.** A configuration without StartTLS, binds, filter syntax, validators named by strings and object scopes
is left as it was, and loading it again does exactly the same: same outcome, same calls, same defaults. -/
theorem c49_repeat_partial (up : Str → Str) (mk : Str → Except Err Nat) (env : Call → Except Err Unit) (g : Globals) (hg : PlainNames g)
    (hn : g.keys.Nodup) (cfg : Cfg)
    (hc : ∀ conn, cfg.connection = some conn → (∀ k ∈ [str "start_tls", str "simple_bind", str "sasl_bind", str "default_filter_syntax"],
      k ∉ conn.keys) ∧ allInst (conn.get? (str "validators")))
    (ho : ∀ objs, cfg.objects = some objs → ∀ d ∈ objs, d.get? (str "relative_search_scope") = none) :
    let one := load up mk env g cfg
    let two := load up mk env one.globals one.cfg
    one.cfg = cfg ∧ two = one := by
  intro one two
  have hcfg : one.cfg = cfg := by
    show (load up mk env g cfg).cfg = cfg
    unfold load
    split
    · rfl
    · split
      · rfl
      · split
        · rfl
        · rename_i conn hconn
          obtain ⟨h1, h2⟩ := hc conn hconn
          have h3 : ∀ d ∈ cfg.objects.getD [], d.get? (str "relative_search_scope") = none := by
            cases hob : cfg.objects with
            | none => simp
            | some objs => exact ho objs hob
          have := fun g' => createConnection_same (up := up) mk env g' conn (cfg.objects.getD []) h1 h2 h3
          simp only [this]
          obtain ⟨a, b, c, d⟩ := cfg
          simp only [] at hconn ⊢
          subst hconn
          cases d <;> rfl
  refine ⟨hcfg, ?_⟩
  show load up mk env one.globals one.cfg = load up mk env g cfg
  rw [hcfg]
  have hglob : globalStep up one.globals cfg.global =
      (globalStep up g cfg.global) := by
    have hog : one.globals = (globalStep up g cfg.global).2 := by
      show (load up mk env g cfg).globals = _
      unfold load
      generalize globalStep up g cfg.global = X
      obtain ⟨r, g'⟩ := X
      cases r with
      | error e => rfl
      | ok u =>
        simp only []
        split
        · rfl
        · split <;> rfl
    rw [hog]
    cases cfg.global with
    | none => rfl
    | some c => exact setGlobal_twice g hg hn c
  unfold load
  rw [hglob]

example : let cfg : Cfg := ⟨some [(str "filter", .text (str "(cn=*)"))], none, some [(str "server", .text (str "ldap://h"))],
      some [[(str "rdn", .text (str "ou=people")), (str "tag", .text (str "people"))]]⟩
    (load exUp (fun _ => .ok 1) (fun _ => .ok ()) shipped cfg).result = .ok true ∧
    (load exUp (fun _ => .ok 1) (fun _ => .ok ()) shipped cfg).calls.length = 2 := by decide +kernel

/-- **C49, object scopes fail the second time:** the scope word has been replaced by the constant, which is not a word. -/
theorem c49_scope_second : let cfg : Cfg := ⟨none, none, some [],
      some [[(str "rdn", .text (str "ou=p")), (str "tag", .text (str "p")), (str "relative_search_scope", .text (str "one"))]]⟩
    let one := load exUp (fun _ => .ok 1) (fun _ => .ok ()) shipped cfg
    one.result = .ok true ∧ (load exUp (fun _ => .ok 1) (fun _ => .ok ()) one.globals one.cfg).result = .error .attributeError := by
  decide +kernel

end Laurelin.Props
