import Verif.Model.Tls
/-!
# What connecting and TLS are about, independently of the code
-/
namespace Laurelin.Spec
open Laurelin Tls

/-- `netloc` is a host, or a host and the text after its last colon. -/
inductive NetLoc : Str → Str → Option Str → Prop where
  | host (h : Str) : ':' ∉ h → NetLoc h h none
  | port (h p : Str) : ':' ∉ p → NetLoc (h ++ ':' :: p) h (some p)

/-- `s` is a decimal numeral for `n` -/
inductive Decimal : Str → Nat → Prop where
  | digit (d : Nat) : d < 10 → Decimal [Nat.digitChar d] d
  | snoc (s : Str) (n d : Nat) : Decimal s n → d < 10 → Decimal (s ++ [Nat.digitChar d]) (10 * n + d)

/-- `path` is the socket found for `ldapi:///`: the only file matching one of the patterns, accepting connections, where no earlier pattern has one. -/
def FoundSocket (net : Net) (patterns : List Str) (path : Str) : Prop :=
  ∃ before g after, patterns = before ++ g :: after ∧ net.glob g = [path] ∧ net.unix path = true ∧ ∀ g' ∈ before, ∀ p, net.glob g' = [p] → net.unix p = false

/-- the last common name of the subject -/
def LastCommonName (cert : Cert) (cn : Str) : Prop :=
  ∃ pre post, cert.subject = pre ++ (str "commonName", cn) :: post ∧ ∀ p ∈ post, p.1 ≠ str "commonName"

/-- the certificate has a name for the host as `check_hostname` understands it (see C41 for how that differs from the names the certificate really gives) -/
def NameAccepted (host : Str) (cert : Cert) : Prop :=
  ∃ cn, LastCommonName cert cn ∧
    (host = cn ∨ (∃ ty, (ty, host) ∈ cert.sans ∧ ¬ (ty = str "DNS" ∧ str "*." <+: host)) ∨
      ∃ rest, (str "DNS", '*' :: '.' :: rest) ∈ cert.sans ∧ ∃ l, host = l ++ '.' :: rest)

/-- a TLS channel with these settings to a peer that, if verification was asked for, has a trusted certificate for the host -/
def SecureChan (pki : Pki) (host : Str) (verify : Bool) (cas : Cas) (c : Chan) : Prop :=
  ∃ cert, c = .tls verify cas cert ∧ (verify = true → pki.trusted cas cert = true ∧ NameAccepted host cert)

/-- `r` is the first response with this id in what arrives, and nothing unsolicited comes before it. -/
def FirstFor (mid : Nat) (inc : List (List Msg)) (r : Resp) : Prop :=
  ∃ pre post, inc.flatten = pre ++ ⟨mid, r⟩ :: post ∧ ∀ m ∈ pre, m.mid ≠ mid ∧ m.mid ≠ 0

end Laurelin.Spec
