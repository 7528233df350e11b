import Verif.Connect.Spec
/-!
C140: how the debugger gets its socket.
-/

namespace Connect

open Spec

theorem loop_four (as : List Fam) (cur : Fam) (h : Fam.inet ∈ as) : familyLoop cur as = .inet := by
  induction as generalizing cur with
  | nil => exact absurd h (by simp)
  | cons f fs ih =>
    rw [familyLoop]
    split
    · assumption
    · rename_i hf
      have : Fam.inet ∈ fs := by
        rcases List.mem_cons.mp h with h | h
        · exact absurd h.symm hf
        · exact h
      split
      · exact ih _ this
      · exact ih _ this

theorem loop_six (as : List Fam) (cur : Fam) (h : Fam.inet ∉ as) :
    familyLoop cur as = if Fam.inet6 ∈ as then .inet6 else cur := by
  induction as generalizing cur with
  | nil => rfl
  | cons f fs ih =>
    have h1 : f ≠ .inet := fun e => h (by simp [e])
    have h2 : Fam.inet ∉ fs := fun e => h (by simp [e])
    rw [familyLoop, if_neg h1]
    by_cases hf : f = .inet6
    · subst hf
      rw [if_pos rfl, ih _ h2]
      simp
    · rw [if_neg hf, ih _ h2]
      have : (Fam.inet6 ∈ f :: fs) ↔ Fam.inet6 ∈ fs := by simp [Ne.symm hf]
      by_cases hm : Fam.inet6 ∈ fs
      · rw [if_pos hm, if_pos (this.mpr hm)]
      · rw [if_neg hm, if_neg (fun e => hm (this.mp e))]

/-- C140. The family chosen is the best one, whatever the order of the addresses. -/
theorem c140_family (as : List Fam) (f : Fam) : familyLoop .inet as = f ↔ Best as f := by
  constructor
  · rintro rfl
    refine ⟨fun h => loop_four _ _ h, fun h1 h2 => ?_, fun h1 h2 => ?_⟩
    · rw [loop_six _ _ h1, if_pos h2]
    · rw [loop_six _ _ h1, if_neg h2]
  · intro hb
    by_cases h1 : Fam.inet ∈ as
    · rw [loop_four _ _ h1, hb.four h1]
    · rw [loop_six _ _ h1]
      by_cases h2 : Fam.inet6 ∈ as
      · rw [if_pos h2, hb.six h1 h2]
      · rw [if_neg h2, hb.neither h1 h2]

theorem timeout_iff (env : Option Str) (t : Int) : timeout env = some t ↔ Wait env t := by
  unfold timeout Wait
  cases env with
  | none => simp [eq_comm]
  | some s => simp

/-- C140. A socket is returned exactly if the host is known, a socket of the best family can be made, and the other side accepts within the time to wait,
whichever of the options are available; then it was connected under that limit and has none afterwards. -/
theorem c140_client (n : Net) (ho : Opt.raises ∉ n.options) (log : List Ev) :
    startClient n = (log, true) ↔
      ∃ as f t, n.addrs = some as ∧ Best as f ∧ n.create f = true ∧ Wait n.env t ∧ 0 ≤ t ∧ n.accepts f t = true ∧
        log = [.created f, .timeout (some t), .connected, .timeout none] := by
  have hany : n.options.any (· == .raises) = false := by
    rw [Bool.eq_false_iff]
    intro h
    obtain ⟨o, h1, h2⟩ := List.any_eq_true.mp h
    have : o = Opt.raises := by simpa using h2
    exact ho (this ▸ h1)
  unfold startClient
  cases ha : n.addrs with
  | none => simp
  | some as =>
    simp only [hany, Bool.false_eq_true, if_false]
    constructor
    · intro h
      split at h
      · rename_i hc
        cases ht : timeout n.env with
        | none => rw [ht] at h; simp at h
        | some t =>
          rw [ht] at h
          simp only at h
          split at h
          · simp at h
          · rename_i h0
            split at h
            · rename_i hacc
              simp only [Prod.mk.injEq, and_true] at h
              exact ⟨as, _, t, rfl, (c140_family as _).mp rfl, hc, (timeout_iff _ _).mp ht, by omega, hacc, h.symm⟩
            · simp at h
      · simp at h
    · rintro ⟨as', f, t, h1, h2, h3, h4, h5, h6, rfl⟩
      cases h1
      rw [(c140_family as f).mpr h2, if_pos h3, (timeout_iff _ _).mpr h4]
      simp only
      rw [if_neg (by omega), if_pos h6]

/-- C140. At most one socket is made, and it is of the best family. -/
theorem c140_one (n : Net) (as : List Fam) (ha : n.addrs = some as) :
    (startClient n).1 = [] ∨ ∃ f rest, Best as f ∧ (startClient n).1 = .created f :: rest ∧ ∀ g, .created g ∉ rest := by
  have hb := (c140_family as _).mp rfl
  unfold startClient
  rw [ha]
  simp only
  split
  · right
    refine ⟨familyLoop .inet as, ?_⟩
    split
    · exact ⟨_, hb, rfl, by simp⟩
    · split
      · exact ⟨_, hb, rfl, by simp⟩
      · split
        · exact ⟨_, hb, rfl, by simp⟩
        · split
          · exact ⟨_, hb, rfl, by simp⟩
          · exact ⟨_, hb, rfl, by simp⟩
  · left; rfl

/-- C140. A server's socket is returned exactly if it can be made, set up and bound; one that was made and is not returned is closed. -/
theorem c140_server (make option bind : Bool) :
    ((serverSocket make option bind).2 = .socket ↔ make = true ∧ option = true ∧ bind = true) ∧
    (∀ f, .created f ∈ (serverSocket make option bind).1 → ((serverSocket make option bind).2 = .socket ↔ .closed ∉ (serverSocket make option bind).1)) := by
  cases make <;> cases option <;> cases bind <;> simp [serverSocket]

theorem hasLoopback_iff (hs : List Str) : hasLoopback hs = true ↔ c!"127.0.0.1" ∈ hs := by
  induction hs with
  | nil => simp [hasLoopback]
  | cons h hs ih =>
    rw [hasLoopback]
    by_cases e : h = c!"127.0.0.1"
    · rw [if_pos e]; simp [e]
    · rw [if_neg e, ih]; simp [Ne.symm e]

theorem localhosts_cached (h : Str) (ls : List Lookup) : ∀ r ∈ localhosts (some h) ls, r = some h := by
  induction ls with
  | nil => intro r hr; exact absurd hr (by simp [localhosts])
  | cons l ls ih =>
    intro r hr
    rw [localhosts] at hr
    rcases List.mem_cons.mp hr with hr | hr
    · exact hr
    · exact ih r hr

/-- C140. The name of this machine is one and the same in a run: the one that fits the first lookup. -/
theorem c140_localhost (l : Lookup) (ls : List Lookup) :
    ∃ h, Local l h ∧ (localhosts none (l :: ls)).length = ls.length + 1 ∧ ∀ r ∈ localhosts none (l :: ls), r = some h := by
  have hlen : ∀ (c : Option Str) (xs : List Lookup), (localhosts c xs).length = xs.length := by
    intro c xs
    induction xs generalizing c with
    | nil => rfl
    | cons x xs ih => rw [localhosts, List.length_cons, ih, List.length_cons]
  have key : ∀ h, getLocalhost none l = (some h, some h) → ∀ r ∈ localhosts none (l :: ls), r = some h := by
    intro h e r hr
    rw [localhosts, e] at hr
    rcases List.mem_cons.mp hr with hr | hr
    · exact hr
    · exact localhosts_cached h ls r hr
  cases l with
  | none => exact ⟨_, Or.inl ⟨fun hs h => absurd h (by simp), rfl⟩, hlen _ _, key _ rfl⟩
  | some hs =>
    by_cases hm : c!"127.0.0.1" ∈ hs
    · refine ⟨_, Or.inl ⟨fun hs' h => ?_, rfl⟩, hlen _ _, key _ ?_⟩
      · cases h; exact hm
      · unfold getLocalhost
        simp only
        rw [if_pos ((hasLoopback_iff hs).mpr hm)]
    · refine ⟨_, Or.inr ⟨hs, rfl, hm, rfl⟩, hlen _ _, key _ ?_⟩
      unfold getLocalhost
      simp only
      rw [if_neg (fun e => hm ((hasLoopback_iff hs).mp e))]

/-! ### Cases, and what is wrong -/

def net : Net :=
  { addrs := some [.other, .inet6, .inet], create := fun _ => true, options := [.set, .missing, .set], env := some c!" 3 "
    accepts := fun f t => decide (f = .inet ∧ 2 ≤ t) }

/-- A host with both kinds of addresses, an option that is not available, and a limit set by the user. -/
theorem c140_example : startClient net = ([.created .inet, .timeout (some 3), .connected, .timeout none], true) ∧
    localhosts none [some [c!"::1"], some [c!"127.0.0.1"], none] = [some c!"localhost", some c!"localhost", some c!"localhost"] := by
  constructor <;> decide +kernel

/-- A socket that could not be connected is left open. -/
theorem c140_open_witness : startClient { net with env := some c!"1" } = ([.created .inet, .timeout (some 1)], false) := by decide +kernel

/-- If no socket can be made for a server the error is lost: `server` is not bound in the handler. -/
theorem c140_unbound_witness : (serverSocket false true true).2 = .unbound := rfl

/-- If `0` is asked for, only a connection made at once counts: it does not mean no limit. -/
theorem c140_zero_witness : startClient { net with env := some c!"0" } = ([.created .inet, .timeout (some 0)], false) := by decide +kernel

end Connect
