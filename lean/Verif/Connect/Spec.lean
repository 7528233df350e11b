import Verif.Connect.Model
/-!
The family of addresses to use, the time to wait, and the name of this machine.
-/

namespace Connect.Spec

/-- IPv4 if the host has such an address, else IPv6 if it has such a one, else IPv4 -/
structure Best (addrs : List Fam) (f : Fam) : Prop where
  four : .inet ∈ addrs → f = .inet
  six : .inet ∉ addrs → .inet6 ∈ addrs → f = .inet6
  neither : .inet ∉ addrs → .inet6 ∉ addrs → f = .inet

/-- ten seconds, or what the user says -/
def Wait (env : Option Str) (t : Int) : Prop := (env = none ∧ t = 10) ∨ ∃ s, env = some s ∧ Py.parseInt s = some t

/-- by number if that is known or nothing is, else by name -/
def Local (l : Lookup) (h : Str) : Prop :=
  ((∀ hs, l = some hs → c!"127.0.0.1" ∈ hs) ∧ h = c!"127.0.0.1") ∨ (∃ hs, l = some hs ∧ c!"127.0.0.1" ∉ hs ∧ h = c!"localhost")

end Connect.Spec
