import Verif.Shadow.Spec
/-!
C136: an error while modules of the standard library are imported is never lost, and a file that hides one is named.
-/

namespace Shadow

open Spec

theorem endsWith_slash (a : Str) : Py.endsWith a c!"/" = true ↔ a.getLast? = some '/' := by
  rw [Py.endsWith_iff]
  constructor
  · rintro ⟨t, rfl⟩; simp
  · intro h
    refine ⟨a.dropLast, ?_⟩
    have hne : a ≠ [] := by rintro rfl; simp at h
    rw [List.getLast?_eq_some_getLast hne] at h
    have := List.dropLast_concat_getLast hne
    rw [Option.some.inj h] at this
    exact this

theorem joinAll_place (path : Str) (parts : List Str) (hp : Dir path) (h : ∀ p ∈ parts, p ≠ [] ∧ '/' ∉ p) : joinAll path parts = place path parts := by
  induction parts generalizing path with
  | nil => simp [joinAll, place]
  | cons q parts ih =>
    obtain ⟨hq1, hq2⟩ := h q (by simp)
    have e : join2 path q = path ++ '/' :: q := by
      unfold join2
      rw [if_neg]
      · simp
      · rintro (h | h)
        · exact hp.1 h
        · exact hp.2 ((endsWith_slash path).mp h)
    show joinAll (join2 path q) parts = _
    rw [e, ih _ ?_ (fun p hp => h p (by simp [hp]))]
    · simp [place]
    · refine ⟨by simp, ?_⟩
      rw [List.getLast?_append, List.getLast?_cons]
      intro h
      rw [List.getLast?_eq_some_getLast hq1] at h
      simp only [Option.getD_some, Option.some_or, Option.some.injEq] at h
      exact hq2 (h ▸ List.getLast_mem hq1)

theorem findLoop_eq (d : Disk) (parts : List Str) (acc sysPath : List Str) (hs : ∀ p ∈ sysPath, Dir p) (h : ∀ p ∈ parts, p ≠ [] ∧ '/' ∉ p) :
    findLoop d parts acc sysPath = acc ++ places d sysPath parts := by
  induction sysPath generalizing acc with
  | nil => simp [findLoop, places]
  | cons p ps ih =>
    rw [findLoop]
    rw [ih _ (fun q hq => hs q (by simp [hq])), joinAll_place _ _ (hs p (by simp)) h]
    unfold places
    rw [List.flatMap_cons]
    cases h1 : d.isdir (place p parts) <;> cases h2 : d.exists_ (place p parts ++ c!".py") <;> simp [h1, h2]

/-- the parts of a name of a module -/
def NameOk (name : Str) : Prop := ∀ p ∈ Py.split1 '.' name, p ≠ [] ∧ '/' ∉ p

/-- C136. The places found are those at which Python looks, in that order. -/
theorem c136_found (d : Disk) (sysPath : List Str) (name : Str) (hs : ∀ p ∈ sysPath, Dir p) (hn : NameOk name) :
    find d sysPath name = places d sysPath (Py.split1 '.' name) := by
  unfold find
  rw [findLoop_eq d _ [] sysPath hs hn, List.nil_append]

theorem check_none {n : Str} {m : Module} {as : List Str} (h : check n m as = none) : ∀ a ∈ as, a ∈ m.attrs := by
  induction as with
  | nil => simp
  | cons a as ih =>
    rw [check] at h
    by_cases ha : m.attrs.contains a = true
    · rw [if_pos ha] at h
      intro x hx
      rcases List.mem_cons.mp hx with rfl | hx
      · simpa using ha
      · exact ih h x hx
    · rw [if_neg ha] at h
      cases hf : m.file <;> simp [hf] at h

theorem check_all {n : Str} {m : Module} {as : List Str} (h : ∀ a ∈ as, a ∈ m.attrs) : check n m as = none := by
  induction as with
  | nil => rfl
  | cons a as ih =>
    rw [check, if_pos (by simpa using h a (by simp))]
    exact ih (fun x hx => h x (by simp [hx]))

theorem check_missing {n : Str} {m : Module} {as : List Str} {f : Str} (hf : m.file = .ok f) (h : ∃ a ∈ as, a ∉ m.attrs) :
    check n m as = some (.debugger n f) := by
  induction as with
  | nil => simp at h
  | cons a as ih =>
    rw [check]
    by_cases ha : m.attrs.contains a = true
    · rw [if_pos ha]
      obtain ⟨x, hx, hx'⟩ := h
      rcases List.mem_cons.mp hx with rfl | hx
      · exact absurd (by simpa using ha) hx'
      · exact ih ⟨x, hx, hx'⟩
    · rw [if_neg ha, hf]

/-- C136. The program goes on exactly if the module could be imported and has everything the debugger needs of it. -/
theorem c136_goes_on (d : Disk) (sysPath : List Str) (name : Str) (imported : Except Nat Module) (expected : List Str) :
    block d sysPath name imported expected = none ↔ ∃ m, imported = .ok m ∧ ∀ a ∈ expected, a ∈ m.attrs := by
  have hexit : ∀ e, exit d sysPath name (some e) ≠ none := by
    intro e
    cases e with
    | debugger n f => simp [exit]
    | other e => rw [exit]; split <;> simp
  unfold block
  cases imported with
  | error e => simp [hexit]
  | ok m =>
    simp only [Except.ok.injEq, exists_eq_left']
    constructor
    · intro h
      cases hc : check name m expected with
      | none => exact check_none hc
      | some e => rw [hc] at h; exact absurd h (hexit e)
    · intro h
      rw [check_all h]; rfl

/-- C136. If it could not be imported, and there is one such file or none, the user sees the error itself; if there are more the error names the
first one. -/
theorem c136_not_imported (d : Disk) (sysPath : List Str) (name : Str) (e : Nat) (expected : List Str) (hs : ∀ p ∈ sysPath, Dir p) (hn : NameOk name) :
    ((places d sysPath (Py.split1 '.' name)).length ≤ 1 → block d sysPath name (.error e) expected = some (.other e)) ∧
    (∀ f, 2 ≤ (places d sysPath (Py.split1 '.' name)).length → (places d sysPath (Py.split1 '.' name)).head? = some f →
      block d sysPath name (.error e) expected = some (.debugger name f)) := by
  have hb : block d sysPath name (.error e) expected = exit d sysPath name (some (.other e)) := rfl
  rw [hb, exit, c136_found d sysPath name hs hn]
  generalize places d sysPath (Py.split1 '.' name) = l
  match l with
  | [] => simp
  | [x] => simp
  | x :: y :: l =>
    refine ⟨fun h => by simp at h, fun f _ hf => ?_⟩
    simp only [List.head?_cons, Option.some.injEq] at hf
    rw [hf]

/-- C136. If something is missing from what was imported the error names the file that was imported. -/
theorem c136_missing (d : Disk) (sysPath : List Str) (name : Str) (m : Module) (expected : List Str) (f : Str) (hf : m.file = .ok f)
    (h : ∃ a ∈ expected, a ∉ m.attrs) : block d sysPath name (.ok m) expected = some (.debugger name f) := by
  show exit d sysPath name (check name m expected) = _
  rw [check_missing hf h]; rfl

/-! ### Cases, and what is wrong -/

def disk : Disk := { isdir := fun _ => false, exists_ := fun p => decide (p = c!"/u/queue.py" ∨ p = c!"/lib/queue.py" ∨ p = c!"/lib/xmlrpc/server.py") }

/-- `queue.py` of the user hides that of the library. -/
theorem c136_example : block disk [c!"/u", c!"/lib"] c!"queue" (.error 5) [c!"Queue"] = some (.debugger c!"queue" c!"/u/queue.py") ∧
    block disk [c!"/u", c!"/lib"] c!"xmlrpc.server" (.error 5) [] = some (.other 5) ∧
    NameOk c!"xmlrpc.server" ∧ Dir c!"/u" := by
  refine ⟨by decide +kernel, by decide +kernel, ?_, ?_⟩
  · unfold NameOk; decide +kernel
  · exact ⟨by decide, by decide⟩

/-- A directory that is twice in `sys.path`: the only file is said to be hidden by itself. -/
theorem c136_twice_witness : block disk [c!"/lib", c!"/lib"] c!"queue" (.error 5) [] = some (.debugger c!"queue" c!"/lib/queue.py") := by decide +kernel

/-- A file `xmlrpc.py` of the user: the debugger looks for `xmlrpclib`, so that it does not say which file hides the module. -/
theorem c136_xmlrpc_witness :
    let d : Disk := { isdir := fun p => decide (p = c!"/lib/xmlrpc"), exists_ := fun p => decide (p = c!"/u/xmlrpc.py") }
    find d [c!"/u", c!"/lib"] c!"xmlrpc" = [c!"/u/xmlrpc.py", c!"/lib/xmlrpc"] ∧
    block d [c!"/u", c!"/lib"] c!"xmlrpclib" (.error 5) [] = some (.other 5) := by constructor <;> decide +kernel

end Shadow
