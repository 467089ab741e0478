import Verif.Props.Conn
import Verif.Spec.Tls
/-!
# C72: what a connection URI leads to
-/
namespace Laurelin.Props
open Laurelin Spec Tls

namespace UriP

theorem rsplit_iff (s h : Str) (p : Option Str) : rsplitColon s = (h, p) ↔ NetLoc s h p := by
  constructor
  · intro e
    induction s generalizing h p with
    | nil => simp [rsplitColon] at e; obtain ⟨rfl, rfl⟩ := e; exact .host _ (by simp)
    | cons c t ih =>
      simp only [rsplitColon] at e
      split at e
      · rename_i h' p' e'
        simp only [Prod.mk.injEq] at e
        obtain ⟨rfl, rfl⟩ := e
        cases ih _ _ e' with
        | port _ _ hp => exact .port (c :: h') p' hp
      · rename_i h' e'
        have := ih _ _ e'
        generalize hn : (none : Option Str) = n at this
        cases this with
        | port => cases hn
        | host _ hh =>
          split at e <;> rename_i hc
          · simp only [Prod.mk.injEq] at e
            obtain ⟨rfl, rfl⟩ := e
            subst hc
            exact .port [] _ hh
          · simp only [Prod.mk.injEq] at e
            obtain ⟨rfl, rfl⟩ := e
            exact .host _ (by simp only [List.mem_cons, not_or]; exact ⟨fun q => hc q.symm, hh⟩)
  · have nc : ∀ s : Str, ':' ∉ s → rsplitColon s = (s, none) := by
      intro s hs
      induction s with
      | nil => rfl
      | cons c t ih =>
        simp only [List.mem_cons, not_or] at hs
        simp only [rsplitColon, ih hs.2]
        rw [if_neg (fun q => hs.1 q.symm)]
    intro e
    cases e with
    | host _ hh => exact nc _ hh
    | port _ p hp =>
      induction h with
      | nil => simp [rsplitColon, nc p hp]
      | cons c t ih => simp only [List.cons_append, rsplitColon, ih]

theorem isDigit_digitChar (d : Nat) (h : d < 10) : (Nat.digitChar d).isDigit = true ∧ (Nat.digitChar d).toNat - '0'.toNat = d := by
  match d, h with
  | 0, _ | 1, _ | 2, _ | 3, _ | 4, _ | 5, _ | 6, _ | 7, _ | 8, _ | 9, _ => decide

theorem digitsVal_digits (s : Str) (hs : ∀ c ∈ s, c.isDigit = true) (u : Bool) (n : Nat) :
    digitsVal u n s = some (s.foldl (fun n c => 10 * n + (c.toNat - '0'.toNat)) n) := by
  induction s generalizing u n with
  | nil => simp [digitsVal]
  | cons c t ih =>
    rw [digitsVal.eq_def]
    simp only [hs c (by simp), if_true, List.foldl_cons]
    exact ih (fun x hx => hs x (by simp [hx])) _ _

theorem decimal_digits {s : Str} {n : Nat} (h : Decimal s n) :
    s ≠ [] ∧ (∀ c ∈ s, c.isDigit = true) ∧ s.foldl (fun n c => 10 * n + (c.toNat - '0'.toNat)) 0 = n := by
  induction h with
  | digit d hd =>
    have := isDigit_digitChar d hd
    refine ⟨by simp, by simpa using this.1, by simpa using this.2⟩
  | snoc s n d _ hd ih =>
    have := isDigit_digitChar d hd
    refine ⟨by simp, ?_, ?_⟩
    · intro c hc
      rcases List.mem_append.1 hc with hc | hc
      · exact ih.2.1 c hc
      · have : c = Nat.digitChar d := by simpa using hc
        subst this; exact (isDigit_digitChar d hd).1
    · simp only [List.foldl_append, ih.2.2, List.foldl_cons, List.foldl_nil, this.2]

theorem isDigit_bounds {c : Char} (h : c.isDigit = true) : 48 ≤ c.toNat ∧ c.toNat ≤ 57 := by
  simp only [Char.isDigit, Bool.and_eq_true, decide_eq_true_eq] at h
  exact ⟨by simpa using UInt32.le_iff_toNat_le.1 h.1, by simpa using UInt32.le_iff_toNat_le.1 h.2⟩

theorem digit_not_space {c : Char} (h : c.isDigit = true) : inClass pySpace c = false := by
  have := isDigit_bounds h
  simp only [inClass, pySpace, List.any_cons, List.any_nil, Bool.or_false, Bool.or_eq_false_iff, Bool.and_eq_false_iff, decide_eq_false_iff_not]
  omega

theorem strip_digits (s : Str) (hs : ∀ c ∈ s, c.isDigit = true) : pyStrip (inClass pySpace) s = s := by
  have dw : ∀ t : Str, (∀ c ∈ t, c.isDigit = true) → t.dropWhile (inClass pySpace) = t := by
    intro t ht
    cases t with
    | nil => rfl
    | cons c t => rw [List.dropWhile_cons, digit_not_space (ht c (by simp))]; simp
  unfold pyStrip
  rw [dw s hs, dw s.reverse (fun c hc => hs c (by simpa using hc)), List.reverse_reverse]

theorem pyInt_decimal {s : Str} {n : Nat} (h : Decimal s n) : pyInt s = .ok (n : Int) := by
  obtain ⟨h1, h2, h3⟩ := decimal_digits h
  unfold pyInt
  rw [strip_digits s h2]
  cases s with
  | nil => exact absurd rfl h1
  | cons c t =>
    have hc := h2 c (by simp)
    have hm : c ≠ '-' := by rintro rfl; revert hc; decide
    have hp : c ≠ '+' := by rintro rfl; revert hc; decide
    split
    · rename_i q; exact absurd (List.cons.inj q).1 hm
    · rename_i q; exact absurd (List.cons.inj q).1 hp
    · rename_i _ _ _ _ q
      obtain ⟨rfl, rfl⟩ := List.cons.inj q
      rw [if_pos hc, digitsVal_digits _ h2, h3]
    · rename_i q; cases q

theorem digitsVal_chars (s : Str) (u : Bool) (n v : Nat) (h : digitsVal u n s = some v) : ∀ c ∈ s, c.isDigit = true ∨ c = '_' := by
  induction hl : s.length using Nat.strongRecOn generalizing s u n with
  | _ k ih =>
    subst hl
    cases s with
    | nil => simp
    | cons c t =>
      rw [digitsVal.eq_def] at h
      simp only at h
      split at h
      · rename_i hc
        intro x hx
        rcases List.mem_cons.1 hx with rfl | hx
        · exact .inl hc
        · exact ih t.length (by simp) t _ _ h rfl x hx
      · split at h
        · rename_i hc
          cases t with
          | nil => cases h
          | cons d t' =>
            simp only at h
            split at h
            · rename_i hd
              intro x hx
              simp only [List.mem_cons] at hx
              rcases hx with rfl | rfl | hx
              · exact .inr hc.1
              · exact .inl hd
              · exact ih t'.length (by simp; omega) t' _ _ h rfl x hx
            · cases h
        · cases h

/-- only digits, underscores, signs and whitespace occur in what `int` accepts -/
theorem pyInt_chars (s : Str) (v : Int) (h : pyInt s = .ok v) :
    ∀ c ∈ s, c.isDigit = true ∨ c = '_' ∨ c = '+' ∨ c = '-' ∨ inClass pySpace c = true := by
  have key : ∀ c ∈ pyStrip (inClass pySpace) s, c.isDigit = true ∨ c = '_' ∨ c = '+' ∨ c = '-' := by
    unfold pyInt at h
    have dig : ∀ t : Str, ∀ w, digitsVal false 0 t = some w → ∀ c ∈ t, c.isDigit = true ∨ c = '_' ∨ c = '+' ∨ c = '-' := by
      intro t w ht c hc
      rcases digitsVal_chars t _ _ _ ht c hc with q | q
      · exact .inl q
      · exact .inr (.inl q)
    split at h
    · rename_i c t e
      rw [e]
      split at h
      · split at h
        · rename_i w hw
          intro x hx
          rcases List.mem_cons.1 hx with rfl | hx
          · exact .inr (.inr (.inr rfl))
          · exact dig _ _ hw x hx
        · cases h
      · cases h
    · rename_i c t e
      rw [e]
      split at h
      · split at h
        · rename_i w hw
          intro x hx
          rcases List.mem_cons.1 hx with rfl | hx
          · exact .inr (.inr (.inl rfl))
          · exact dig _ _ hw x hx
        · cases h
      · cases h
    · rename_i c t _ _ e
      rw [e]
      split at h
      · split at h
        · rename_i w hw
          exact dig _ _ hw
        · cases h
      · cases h
    · cases h
  have mem : ∀ (t : Str) (c : Char), c ∈ t → c ∈ t.dropWhile (inClass pySpace) ∨ inClass pySpace c = true := by
    intro t c hc
    induction t with
    | nil => cases hc
    | cons d t ih =>
      rw [List.dropWhile_cons]
      rcases List.mem_cons.1 hc with rfl | hc
      · by_cases hw : inClass pySpace c = true
        · exact .inr hw
        · left; simp [hw]
      · split
        · exact ih hc
        · exact .inl (by simp [hc])
  intro c hc
  rcases mem s c hc with h1 | h1
  · rcases mem _ c (List.mem_reverse.2 h1) with h2 | h2
    · rcases key c (by unfold pyStrip; exact List.mem_reverse.2 h2) with q | q | q | q
      · exact .inl q
      · exact .inr (.inl q)
      · exact .inr (.inr (.inl q))
      · exact .inr (.inr (.inr (.inl q)))
    · exact .inr (.inr (.inr (.inr h2)))
  · exact .inr (.inr (.inr (.inr h1)))

theorem pyInt_err (s : Str) (e : Err) (h : pyInt s = .error e) : e = .valueError := by
  unfold pyInt at h
  repeat' split at h
  all_goals first | (cases h; rfl) | cases h

theorem portOf_err (d : Int) (p : Option Str) (e : Err) (h : portOf d p = .error e) : e = .valueError := by
  cases p with
  | none => cases h
  | some p => exact pyInt_err p e h

theorem findUnix_ok (net : Net) (gs : List Str) (path : Str) : findUnix net gs = .ok (.unix path) ↔ FoundSocket net gs path := by
  induction gs with
  | nil => simp [findUnix, FoundSocket]
  | cons g gs ih =>
    have step : (∀ p, net.glob g = [p] → net.unix p = false) → (FoundSocket net (g :: gs) path ↔ FoundSocket net gs path) := by
      intro hg
      constructor
      · rintro ⟨b, x, a, e, h1, h2, h3⟩
        cases b with
        | nil =>
          obtain ⟨rfl, rfl⟩ := List.cons.inj e
          rw [hg _ h1] at h2; cases h2
        | cons y b =>
          obtain ⟨rfl, rfl⟩ := List.cons.inj e
          exact ⟨b, x, a, rfl, h1, h2, fun q hq => h3 q (by simp [hq])⟩
      · rintro ⟨b, x, a, e, h1, h2, h3⟩
        refine ⟨g :: b, x, a, by simp [e], h1, h2, ?_⟩
        intro q hq
        rcases List.mem_cons.1 hq with rfl | hq
        · exact hg
        · exact h3 q hq
    simp only [findUnix]
    split
    · rename_i f hf
      split
      · rename_i hu
        constructor
        · intro h; cases h; exact ⟨[], g, gs, rfl, hf, hu, by simp⟩
        · rintro ⟨b, x, a, e, h1, h2, h3⟩
          cases b with
          | nil =>
            obtain ⟨rfl, rfl⟩ := List.cons.inj e
            rw [hf] at h1; cases h1; rfl
          | cons y b =>
            obtain ⟨rfl, rfl⟩ := List.cons.inj e
            have := h3 g (by simp) f hf
            rw [hu] at this; cases this
      · rename_i hu
        rw [step, ih]
        intro p hp
        rw [hf] at hp; cases hp; simpa using hu
    · rename_i hn
      rw [step, ih]
      intro p hp
      exact absurd hp (hn p)

theorem findUnix_res (net : Net) (gs : List Str) : findUnix net gs = .error .connection ∨ ∃ p, findUnix net gs = .ok (.unix p) := by
  induction gs with
  | nil => exact .inl rfl
  | cons g gs ih =>
    simp only [findUnix]
    split
    · split
      · exact .inr ⟨_, rfl⟩
      · exact ih
    · exact ih

theorem startTls_fields {pki : Pki} {s s' : Tls.Sock} {verify : Bool} {cas : Cas} {peer : Except Err Cert} {r : Except Err Unit}
    (h : s.startTls pki verify cas peer = (r, s')) : s'.scheme = s.scheme ∧ s'.uri = s.uri ∧ s'.host = s.host ∧ s'.sent = s.sent ∧ s'.queues = s.queues ∧ s'.nextId = s.nextId ∧
      s'.unbound = s.unbound ∧ s'.refcount = s.refcount := by
  have hw : ∀ r s1, wrap pki s verify cas peer = (r, s1) → s1.scheme = s.scheme ∧ s1.uri = s.uri ∧ s1.host = s.host ∧ s1.sent = s.sent ∧ s1.queues = s.queues ∧ s1.nextId = s.nextId ∧
      s1.unbound = s.unbound ∧ s1.refcount = s.refcount := by
    intro r s1 h
    unfold wrap at h
    repeat' split at h
    all_goals (cases h; exact ⟨rfl, rfl, rfl, rfl, rfl, rfl, rfl, rfl⟩)
  unfold Tls.Sock.startTls at h
  split at h
  · cases h; exact ⟨rfl, rfl, rfl, rfl, rfl, rfl, rfl, rfl⟩
  · split at h
    · rename_i e; cases h; exact hw _ _ e
    · rename_i e
      have := hw _ _ e
      split at h <;> (cases h; exact this)

end UriP

/-- **C72.** `scheme://location` is taken apart at the "://"; without one the scheme is `ldapi` for a path and `ldap` otherwise. -/
theorem c72_scheme (unq : Str → Str) (sch rest : Str) (hs : ∀ x y, sch ++ [':', '/'] ≠ x ++ str "://" ++ y) (hr : NoScheme rest) :
    parseUri unq (sch ++ str "://" ++ rest) = .ok (sch, unq rest) := by
  have h := splitScheme_go_one [] sch rest hs hr
  simp only [parseUri, Conn.splitScheme, h, List.nil_append]

theorem c72_no_scheme (unq : Str → Str) (u : Str) (h : NoScheme u) (hu : unq u ≠ []) :
    parseUri unq u = .ok (if (unq u).head? = some '/' then str "ldapi" else str "ldap", unq u) := by
  cases hc : unq u with
  | nil => exact absurd hc hu
  | cons c r => simp [parseUri, Conn.splitScheme, splitScheme_go_none _ _ h, hc]

/-- the default port of a TCP scheme -/
def c72_port (scheme : Str) : Option Int := if scheme = str "ldap" then some 389 else if scheme = str "ldaps" then some 636 else none

/-- **C72.** `ldap` and `ldaps` connect to the host at the scheme's port, or at the decimal port given after the last colon. A connection that cannot be made is an `LDAPConnectionError`. -/
theorem c72_tcp (net : Net) (scheme netloc h : Str) (d : Int) (hd : c72_port scheme = some d) (p : Option Str) (hn : NetLoc netloc h p) (port : Int)
    (hp : (p = none ∧ port = d) ∨ ∃ q n, p = some q ∧ Decimal q n ∧ port = (n : Int)) :
    (net.inet h port = none → dial net scheme netloc = .ok (.inet h port)) ∧
    (net.inet h port = some .osError → dial net scheme netloc = .error .connection) := by
  have hi : dial net scheme netloc = inetConnect net netloc d := by
    unfold c72_port at hd
    unfold dial
    by_cases h1 : scheme = str "ldap"
    · rw [if_pos h1] at hd ⊢; cases hd; rfl
    · rw [if_neg h1] at hd ⊢
      by_cases h2 : scheme = str "ldaps"
      · rw [if_pos h2] at hd ⊢; cases hd; rfl
      · rw [if_neg h2] at hd; cases hd
  have hr := (UriP.rsplit_iff netloc h p).2 hn
  have hport : portOf d p = .ok port := by
    rcases hp with ⟨rfl, rfl⟩ | ⟨q, n, rfl, hq, rfl⟩
    · rfl
    · exact UriP.pyInt_decimal hq
  rw [hi]
  constructor
  · intro e; simp [inetConnect, hr, hport, e]
  · intro e; simp [inetConnect, hr, hport, e]

/-- **C72.** ... and to nothing else: whatever the URI, a TCP connection is made to the text before the last colon, at the default port if there is no colon. -/
theorem c72_tcp_only (net : Net) (scheme netloc : Str) (d : Int) (hd : c72_port scheme = some d) (t : Target) (ht : dial net scheme netloc = .ok t) :
    ∃ h p port, NetLoc netloc h p ∧ t = .inet h port ∧ net.inet h port = none ∧ (p = none → port = d) ∧ (∀ q, p = some q → pyInt q = .ok port) := by
  have hi : dial net scheme netloc = inetConnect net netloc d := by
    unfold c72_port at hd
    unfold dial
    by_cases h1 : scheme = str "ldap"
    · rw [if_pos h1] at hd ⊢; cases hd; rfl
    · rw [if_neg h1] at hd ⊢
      by_cases h2 : scheme = str "ldaps"
      · rw [if_pos h2] at hd ⊢; cases hd; rfl
      · rw [if_neg h2] at hd; cases hd
  rw [hi] at ht
  unfold inetConnect at ht
  simp only at ht
  split at ht
  · cases ht
  · rename_i port hport
    split at ht
    · rename_i hc
      cases ht
      refine ⟨_, _, port, (UriP.rsplit_iff netloc (rsplitColon netloc).1 (rsplitColon netloc).2).1 rfl, rfl, hc, ?_, ?_⟩
      · intro e; rw [e] at hport; cases hport; rfl
      · intro q e; rw [e] at hport; exact hport
    · cases ht

/-- **C72.** A port containing anything but digits, underscores, signs and blanks raises `ValueError` before any connection is tried, not an `LDAPError`. -/
theorem c72_bad_port (net : Net) (scheme netloc h p : Str) (d : Int) (hd : c72_port scheme = some d) (hn : NetLoc netloc h (some p)) (c : Char) (hc : c ∈ p)
    (hbad : ¬ (c.isDigit = true ∨ c = '_' ∨ c = '+' ∨ c = '-' ∨ inClass pySpace c = true)) : dial net scheme netloc = .error .valueError := by
  have hi : dial net scheme netloc = inetConnect net netloc d := by
    unfold c72_port at hd
    unfold dial
    by_cases h1 : scheme = str "ldap"
    · rw [if_pos h1] at hd ⊢; cases hd; rfl
    · rw [if_neg h1] at hd ⊢
      by_cases h2 : scheme = str "ldaps"
      · rw [if_pos h2] at hd ⊢; cases hd; rfl
      · rw [if_neg h2] at hd; cases hd
  have hr := (UriP.rsplit_iff netloc h (some p)).2 hn
  have he : portOf d (some p) = .error .valueError := by
    show pyInt p = _
    cases hp : pyInt p with
    | ok v => exact absurd (UriP.pyInt_chars p v hp c hc) hbad
    | error e => rw [UriP.pyInt_err p e hp]
  rw [hi]
  simp [inetConnect, hr, he]

/-- **C72 is false of IPv6 addresses.** A bracketed IPv6 address without a port is never connected to: whatever the network, the URI raises `ValueError`. -/
theorem c72_ipv6 (net : Net) (scheme a b : Str) (d : Int) (hd : c72_port scheme = some d) (hb : ':' ∉ b) :
    dial net scheme ('[' :: (a ++ ':' :: (b ++ [']']))) = .error .valueError := by
  refine c72_bad_port net scheme _ ('[' :: a) (b ++ [']']) d hd ?_ ']' (by simp) (by decide)
  exact .port ('[' :: a) (b ++ [']']) (by simpa using hb)

/-- **C72 is false of URIs with a slash** after the port, the form RFC 4516 prescribes when anything follows. -/
theorem c72_trailing_slash (net : Net) (scheme h p : Str) (d : Int) (hd : c72_port scheme = some d) (hp : ':' ∉ p) :
    dial net scheme (h ++ ':' :: (p ++ ['/'])) = .error .valueError :=
  c72_bad_port net scheme _ h (p ++ ['/']) d hd (.port h (p ++ ['/']) (by simpa using hp)) '/' (by simp) (by decide)

/-- **C72.** `ldapi:///` connects to the first local socket there is exactly one of among the known places; any other `ldapi` URI to the path it gives. -/
theorem c72_ldapi (net : Net) (hu : net.haveUnix = true) (netloc path : Str) :
    dial net (str "ldapi") netloc = .ok (.unix path) ↔
      (netloc = ['/'] ∧ FoundSocket net [str "/var/run/ldapi", str "/var/run/slapd/ldapi", str "/var/run/slapd-*.socket"] path) ∨
      (netloc ≠ ['/'] ∧ netloc = path ∧ net.unix path = true) := by
  have h1 : dial net (str "ldapi") netloc = if netloc = ['/'] then findUnix net socketPaths else if net.unix netloc then .ok (.unix netloc) else .error .connection := by
    unfold dial
    rw [if_neg (by decide), if_neg (by decide), if_pos rfl]
    simp [hu]
  rw [h1]
  by_cases hn : netloc = ['/']
  · rw [if_pos hn]
    have := UriP.findUnix_ok net socketPaths path
    rw [this]
    simp [hn, socketPaths]
  · rw [if_neg hn]
    cases hx : net.unix netloc with
    | true =>
      simp only [if_true, hn, false_and, false_or, ne_eq, not_false_eq_true, true_and]
      constructor
      · intro h; cases h; exact ⟨rfl, hx⟩
      · rintro ⟨rfl, _⟩; rfl
    | false =>
      simp only [hn, false_and, false_or, ne_eq, not_false_eq_true, true_and, Bool.false_eq_true, if_false]
      constructor
      · intro h; cases h
      · rintro ⟨rfl, h⟩; rw [hx] at h; cases h

/-- **C72.** Otherwise an `ldapi` connection fails with `LDAPConnectionError`. -/
theorem c72_ldapi_fails (net : Net) (hu : net.haveUnix = true) (netloc : Str) (h : ∀ path, dial net (str "ldapi") netloc ≠ .ok (.unix path)) :
    dial net (str "ldapi") netloc = .error .connection := by
  have h1 : dial net (str "ldapi") netloc = if netloc = ['/'] then findUnix net socketPaths else if net.unix netloc then .ok (.unix netloc) else .error .connection := by
    unfold dial
    rw [if_neg (by decide), if_neg (by decide), if_pos rfl]
    simp [hu]
  by_cases hn : netloc = ['/']
  · rw [if_pos hn] at h1
    rcases UriP.findUnix_res net socketPaths with q | ⟨p, q⟩
    · rw [h1, q]
    · exact absurd (h1.trans q) (h p)
  · rw [if_neg hn] at h1
    cases hx : net.unix netloc with
    | true => rw [hx] at h1; exact absurd h1 (h netloc)
    | false => rw [hx] at h1; exact h1

/-- **C72.** Any other scheme is refused with `LDAPError` and nothing is connected to. Schemes are compared with case: `LDAP://...` is refused too. -/
theorem c72_other_scheme (unq : Str → Str) (pki : Pki) (net : Net) (scheme netloc u : Str) (verify : Bool) (cas : Cas) (peer : Except Err Cert)
    (hu : parseUri unq u = .ok (scheme, netloc)) (h : scheme ≠ str "ldap" ∧ scheme ≠ str "ldaps" ∧ scheme ≠ str "ldapi") :
    newSock unq pki net u verify cas peer = .error .ldapError := by
  simp only [newSock, hu, dial, if_neg h.1, if_neg h.2.1, if_neg h.2.2]

/-- **C72.** A socket for a URI is connected to what the URI says, has sent nothing yet, and is in plain text unless the scheme is `ldaps`. -/
theorem c72_connected (unq : Str → Str) (pki : Pki) (net : Net) (u : Str) (verify : Bool) (cas : Cas) (peer : Except Err Cert) (s : Tls.Sock)
    (h : newSock unq pki net u verify cas peer = .ok s) :
    ∃ netloc t, parseUri unq u = .ok (s.scheme, netloc) ∧ dial net s.scheme netloc = .ok t ∧ s.host = t.host ∧ s.sent = [] ∧ s.queues = [] ∧ s.nextId = 1 ∧ s.unbound = false ∧
      s.uri = s.scheme ++ str "://" ++ netloc ∧ (s.scheme ≠ str "ldaps" → s.chan = .plain ∧ s.startedTls = false) := by
  unfold newSock at h
  split at h
  · cases h
  · rename_i scheme netloc hp
    split at h
    · cases h
    · rename_i t ht
      simp only at h
      split at h
      · rename_i hs
        split at h
        · cases h
        · rename_i s' e
          cases h
          have := UriP.startTls_fields e
          simp only at this
          obtain ⟨e1, e2, e3, e4, e5, e6, e7, _⟩ := this
          rw [e1, e2, e3, e4, e5, e6, e7]
          exact ⟨netloc, t, hp, ht, rfl, rfl, rfl, rfl, rfl, rfl, fun q => absurd hs q⟩
      · cases h
        exact ⟨netloc, t, hp, ht, rfl, rfl, rfl, rfl, rfl, rfl, fun _ => ⟨rfl, rfl⟩⟩

/-- **C72.** The host a certificate is checked against, and that SASL is told, is the host of the URI; for a Unix domain socket it is `localhost`. -/
theorem c72_host (unq : Str → Str) (pki : Pki) (net : Net) (u : Str) (verify : Bool) (cas : Cas) (peer : Except Err Cert) (s : Tls.Sock)
    (h : newSock unq pki net u verify cas peer = .ok s) :
    ∃ netloc t, parseUri unq u = .ok (s.scheme, netloc) ∧ dial net s.scheme netloc = .ok t ∧
      (∀ host port, t = .inet host port → s.host = host) ∧ (∀ path, t = .unix path → s.host = str "localhost") := by
  obtain ⟨nl, t, h1, h2, h3, _⟩ := c72_connected unq pki net u verify cas peer s h
  exact ⟨nl, t, h1, h2, by rintro _ _ rfl; exact h3, by rintro _ rfl; exact h3⟩

/-- the hypotheses on URIs and ports are met -/
def exNet : Net := ⟨fun _ _ => none, true, fun g => if g = str "/var/run/slapd-*.socket" then [str "/var/run/slapd-a.socket"] else if g = str "/var/run/slapd/ldapi" then [str "/x"] else [],
  fun p => p = str "/var/run/slapd-a.socket"⟩

example : dial exNet (str "ldap") (str "db.example.org") = .ok (.inet (str "db.example.org") 389) := by rfl
example : dial exNet (str "ldaps") (str "db.example.org:1636") = .ok (.inet (str "db.example.org") 1636) := by rfl
example : dial exNet (str "ldapi") (str "/") = .ok (.unix (str "/var/run/slapd-a.socket")) := by rfl
example : dial exNet (str "LDAP") (str "h") = .error .ldapError := by rfl
example : dial exNet (str "ldap") (str "[::1]") = .error .valueError := by rfl
example : Decimal (str "389") 389 := .snoc (str "38") 38 9 (.snoc (str "3") 3 8 (.digit 3 (by decide)) (by decide)) (by decide)
example : parseUri id (str "ldaps://h:1") = .ok (str "ldaps", str "h:1") := by rfl

end Laurelin.Props
