import Verif.Options.Model
/-!
C87: the settings of a session are the ones its client asked for.
-/

namespace Options

/-! ## Specification -/

/-- The values that turn a setting on. -/
def On (v : JV) : Prop :=
  v = .bool true ∨ v = .num 1 ∨ v = .str c!"true" ∨ v = .str c!"True" ∨ v = .str c!"1"

instance (v : JV) : Decidable (On v) := by unfold On; infer_instance

/-- The value of one entry `key=value` of an options text, when it is about `key`; a value has no `=`. -/
def entryValue (key entry : Str) : Option Str :=
  if (key ++ c!"=").isPrefixOf entry = true ∧ '=' ∉ entry.drop (key.length + 1) then some (entry.drop (key.length + 1))
  else none

/-- The value of the last entry about `key` among the entries of `key=value;key=value;...`. -/
def lastEntry (text key : Str) : Option Str := (Py.split1 ';' text).reverse.findSome? (entryValue key)

/-- What the options of a request say about a flag: the options text, and the list of flags (the ones in `names`
turn it on) when there is no text. -/
def optionSays (key : Str) (names : List Str) (a : Args) : Option Bool :=
  match a.options with
  | some (c :: cs) => (lastEntry (c :: cs) key).map (fun v => decide (On (.str v)))
  | _ => if ∃ n ∈ names, n ∈ a.flags then some true else none

/-- What a request says about a flag: the first of the arguments `keys` that is there, otherwise the options. -/
def says (keys : List Str) (key : Str) (names : List Str) (a : Args) : Option Bool :=
  match keys.findSome? a.get with
  | some v => some (decide (On v))
  | none => optionSays key names a

/-- What a request says about `justMyCode`. -/
def justMyCodeSays (a : Args) : Option Bool :=
  match a.get c!"justMyCode" with
  | some v => some (decide (On v))
  | none => (says [c!"debugStdLib"] c!"DEBUG_STDLIB" [c!"DebugStdLib"] a).map (!·)

/-- What a request says about the system of the client. -/
def clientOsSays (env : Env) (a : Args) : Option Str :=
  match a.get c!"clientOS" with
  | some v => some (env.upper (env.toStr v))
  | none =>
    match a.options with
    | some (c :: cs) => (lastEntry (c :: cs) c!"CLIENT_OS_TYPE").map env.unquote
    | _ => (a.flags.reverse.findSome? (fun f =>
        if f = c!"WindowsClient" then some c!"WINDOWS" else if f = c!"UnixClient" then some c!"UNIX" else none)).map env.unquote

/-- The requests since the last client connected. -/
def session (h : List Ev) : List Args :=
  h.foldl (fun l e => match e with
    | .connect => []
    | .request a _ => l ++ [a]) []

/-- The value in force: what the last request of the session that says something says, otherwise the default. -/
def inForce {α : Type} (default : α) (say : Args → Option α) (h : List Ev) : α :=
  ((session h).reverse.findSome? say).getD default

def redirectOutput := says [c!"redirectOutput"] c!"REDIRECT_OUTPUT" [c!"RedirectOutput"]
def showReturnValue := says [c!"showReturnValue"] c!"SHOW_RETURN_VALUE" [c!"ShowReturnValue"]
def breakOnExitZero := says [c!"breakOnSystemExitZero"] c!"BREAK_SYSTEMEXIT_ZERO" [c!"BreakOnSystemExitZero"]
def django := says [c!"django"] c!"DJANGO_DEBUG" [c!"Django"]
def flask := says [c!"jinja", c!"flask"] c!"FLASK_DEBUG" [c!"Flask", c!"Jinja"]
def stopOnEntry := says [c!"stopOnEntry"] c!"STOP_ON_ENTRY" [c!"StopOnEntry"]

/-! ## Lemmas -/

theorem boolParser_eq (v : JV) : boolParser v = decide (On v) := by
  cases v with
  | bool b => cases b <;> simp [boolParser, On]
  | num n => simp [boolParser, On]
  | str s =>
    simp only [boolParser, On]
    by_cases h1 : s = c!"True" <;> by_cases h2 : s = c!"true" <;> by_cases h3 : s = c!"1" <;> simp [h1, h2, h3]
  | null => simp [boolParser, On]

/-- Splitting an entry at `=` gives a key and a value exactly when it is `key=value`. -/
theorem split_entry (key value opt : Str) : Py.split1 '=' opt = [key, value] ↔
    opt = key ++ '=' :: value ∧ '=' ∉ key ∧ '=' ∉ value := by
  constructor
  · intro h
    have hj := Py.join1_split1 '=' opt
    have hn := Py.split1_no_sep '=' opt
    rw [h] at hj hn
    refine ⟨?_, hn key (by simp), hn value (by simp)⟩
    rw [← hj]; simp [Py.join1]
  · rintro ⟨rfl, hk, hv⟩
    rw [Py.split1_append '=' key value hk, Py.split1_of_not_mem '=' value hv]

theorem entryValue_iff (key value opt : Str) : entryValue key opt = some value ↔
    opt = key ++ '=' :: value ∧ '=' ∉ value := by
  unfold entryValue
  constructor
  · intro h
    split at h
    · rename_i hc
      obtain ⟨hp, hv⟩ := hc
      rw [List.isPrefixOf_iff_prefix] at hp
      obtain ⟨t, ht⟩ := hp
      have hd : opt.drop (key.length + 1) = t := by
        rw [← ht, List.drop_append]; simp
      rw [hd] at h hv
      injection h with h
      subst h
      exact ⟨by rw [← ht]; simp, hv⟩
    · exact absurd h (by simp)
  · rintro ⟨rfl, hv⟩
    have hd : (key ++ '=' :: value).drop (key.length + 1) = value := by
      rw [List.drop_append]; simp
    rw [hd, if_pos]
    refine ⟨?_, hv⟩
    rw [List.isPrefixOf_iff_prefix]
    exact ⟨value, by simp⟩

/-- One entry: the value for `k` is the one of the entry if it is about `k`. -/
theorem get_parseEntry (env : Env) (d : List (Str × Val)) (opt k : Str) (hk : '=' ∉ k) :
    Py.Dict.get (parseEntry env d opt) k = ((entryValue k opt).bind (parseValue env k)).or (Py.Dict.get d k) := by
  unfold parseEntry
  split
  · rename_i key value hs
    rw [split_entry] at hs
    obtain ⟨rfl, hkey, hval⟩ := hs
    by_cases hkk : key = k
    · subst hkk
      have he : entryValue key (key ++ '=' :: value) = some value := (entryValue_iff _ _ _).2 ⟨rfl, hval⟩
      rw [he, Option.bind_some]
      split
      · rename_i v hv
        rw [hv, Py.Dict.get_set]; simp
      · rename_i hv
        rw [hv]; simp
    · have he : entryValue k (key ++ '=' :: value) = none := by
        cases hev : entryValue k (key ++ '=' :: value) with
        | none => rfl
        | some w =>
          exfalso
          have h2 := (entryValue_iff _ _ _).1 hev
          have h3 := (split_entry k w (key ++ '=' :: value)).2 ⟨h2.1, hk, h2.2⟩
          have h4 := (split_entry key value (key ++ '=' :: value)).2 ⟨rfl, hkey, hval⟩
          rw [h4] at h3
          simp at h3
          exact hkk h3.1
      rw [he]
      split
      · rw [Py.Dict.get_set, if_neg (by simpa using fun h => hkk h.symm)]; simp
      · simp
  · rename_i hs
    cases hev : entryValue k opt with
    | none => simp
    | some w =>
      exfalso
      have h2 := (entryValue_iff _ _ _).1 hev
      exact hs k w ((split_entry k w opt).2 ⟨h2.1, hk, h2.2⟩)

theorem get_foldl (env : Env) (k : Str) (hk : '=' ∉ k) (hv : ∀ v, parseValue env k v ≠ none) (es : List Str)
    (d : List (Str × Val)) :
    Py.Dict.get (es.foldl (parseEntry env) d) k =
      ((es.reverse.findSome? (entryValue k)).bind (parseValue env k)).or (Py.Dict.get d k) := by
  induction es generalizing d with
  | nil => simp
  | cons e es ih =>
    rw [List.foldl_cons, ih, get_parseEntry env d e k hk, List.reverse_cons, List.findSome?_append]
    cases h1 : es.reverse.findSome? (entryValue k) with
    | some w =>
      have := hv w
      cases h2 : parseValue env k w with
      | none => exact absurd h2 this
      | some x => simp [h2]
    | none =>
      cases h3 : entryValue k e <;> simp [h3]

theorem get_parse (env : Env) (k text : Str) (hk : '=' ∉ k) (hv : ∀ v, parseValue env k v ≠ none) :
    Py.Dict.get (parse env text) k = (lastEntry text k).bind (parseValue env k) := by
  unfold parse lastEntry
  split
  · rename_i h
    subst h
    have : entryValue k [] = none := by
      cases hev : entryValue k [] with
      | none => rfl
      | some w => have := ((entryValue_iff _ _ _).1 hev).1; simp at this
    simp [Py.split1, this, Py.Dict.get_nil]
  · rw [get_foldl env k hk hv, Py.Dict.get_nil]; simp

/-- Equal functions find the same. -/
theorem findSome_congr {α β : Type} (f g : α → Option β) (h : ∀ x, f x = g x) (l : List α) :
    l.findSome? f = l.findSome? g := by
  rw [funext h]

/-! ### Flags -/

theorem build_entries (flags : List Str) (k : Str) :
    lastEntry (build flags) k = flags.reverse.findSome? (fun f => (Py.Dict.get byFlag f).bind (entryValue k)) := by
  have hno : ∀ w ∈ flags.filterMap (Py.Dict.get byFlag), ';' ∉ w := by
    intro w hw
    obtain ⟨f, _, hf⟩ := List.mem_filterMap.1 hw
    have := Py.Dict.mem_of_get hf
    have hall : ∀ p ∈ byFlag, ';' ∉ p.2 := by decide +kernel
    exact hall _ this
  unfold lastEntry build
  have hfs : ∀ l : List Str, (l.filterMap (Py.Dict.get byFlag)).findSome? (entryValue k) =
      l.findSome? (fun f => (Py.Dict.get byFlag f).bind (entryValue k)) := by
    intro l
    induction l with
    | nil => rfl
    | cons a l ih =>
      rw [List.filterMap_cons, List.findSome?_cons]
      cases Py.Dict.get byFlag a with
      | none => simpa using ih
      | some e =>
        simp only [Option.bind_some, List.findSome?_cons]
        cases entryValue k e <;> simp [ih]
  by_cases hE : flags.filterMap (Py.Dict.get byFlag) = []
  · have : (flags.reverse.filterMap (Py.Dict.get byFlag)) = [] := by
      rw [List.filterMap_reverse, hE]; rfl
    rw [hE, ← hfs, this]
    have h0 : entryValue k [] = none := by
      cases hev : entryValue k [] with
      | none => rfl
      | some w => have := ((entryValue_iff _ _ _).1 hev).1; simp at this
    simp [Py.join1, Py.split1, h0]
  · rw [Py.split1_join1 ';' _ hE hno, ← List.filterMap_reverse, hfs]

/-- The flags `names`, and no others, stand for `k=True`. -/
theorem build_flag (flags : List Str) (k : Str) (names : List Str)
    (h1 : ∀ p ∈ byFlag, entryValue k p.2 = if p.1 ∈ names then some c!"True" else none)
    (h2 : ∀ n ∈ names, n ∈ byFlag.map (·.1)) :
    lastEntry (build flags) k = if ∃ n ∈ names, n ∈ flags then some c!"True" else none := by
  have hf : ∀ f : Str, (Py.Dict.get byFlag f).bind (entryValue k) = if f ∈ names then some c!"True" else none := by
    intro f
    cases hg : Py.Dict.get byFlag f with
    | none =>
      have := (Py.Dict.get_none_iff byFlag f).1 hg
      rw [if_neg (fun hc => this (h2 f hc))]; rfl
    | some e => exact h1 _ (Py.Dict.mem_of_get hg)
  rw [build_entries, findSome_congr _ _ hf]
  split
  · rename_i hex
    obtain ⟨n, hn, hnf⟩ := hex
    cases hh : flags.reverse.findSome? (fun f => if f ∈ names then some c!"True" else none) with
    | none =>
      have := List.findSome?_eq_none_iff.1 hh n (by simpa using hnf)
      simp [hn] at this
    | some v =>
      obtain ⟨f, _, hfv⟩ := List.exists_of_findSome?_eq_some hh
      split at hfv
      · exact hfv.symm
      · simp at hfv
  · rename_i hex
    rw [List.findSome?_eq_none_iff]
    intro f hff
    rw [if_neg]
    intro hc
    exact hex ⟨f, hc, by simpa using hff⟩

theorem get_extract (env : Env) (a : Args) (k : Str) (hk : '=' ∉ k) (hv : ∀ v, parseValue env k v ≠ none) :
    Py.Dict.get (extract env a.options a.flags) k =
      (match a.options with
        | some (c :: cs) => lastEntry (c :: cs) k
        | _ => lastEntry (build a.flags) k).bind (parseValue env k) := by
  unfold extract
  simp only
  rw [get_parse env k _ hk hv]
  match a.options with
  | none => rfl
  | some [] => rfl
  | some (c :: cs) => rfl

/-- A flag after the options of a request were taken over. -/
theorem flagOr_extract (env : Env) (a : Args) (k : Str) (names : List Str) (before : Bool)
    (hmem : k ∈ flagKeys)
    (h1 : ∀ p ∈ byFlag, entryValue k p.2 = if p.1 ∈ names then some c!"True" else none)
    (h2 : ∀ n ∈ names, n ∈ byFlag.map (·.1)) :
    flagOr (extract env a.options a.flags) k before = (optionSays k names a).getD before := by
  have hk : '=' ∉ k := by
    have : ∀ k ∈ flagKeys, '=' ∉ k := by decide +kernel
    exact this k hmem
  have hp : ∀ v, parseValue env k v = some (.flag (boolParser (.str v))) := by
    intro v; unfold parseValue; rw [if_pos hmem]
  have hT : boolParser (.str c!"True") = true := by decide
  unfold flagOr optionSays
  rw [get_extract env a k hk (fun v => by rw [hp]; simp), build_flag a.flags k names h1 h2]
  match a.options with
  | some (c :: cs) =>
    simp only
    cases lastEntry (c :: cs) k with
    | none => rfl
    | some v => simp [hp, boolParser_eq]
  | none =>
    simp only
    by_cases hex : ∃ n ∈ names, n ∈ a.flags
    · rw [if_pos hex, if_pos hex]; simp [hp, hT]
    · rw [if_neg hex, if_neg hex]; rfl
  | some [] =>
    simp only
    by_cases hex : ∃ n ∈ names, n ∈ a.flags
    · rw [if_pos hex, if_pos hex]; simp [hp, hT]
    · rw [if_neg hex, if_neg hex]; rfl

theorem argOr_says (env : Env) (a : Args) (arg k : Str) (names : List Str) (before : Bool)
    (hmem : k ∈ flagKeys)
    (h1 : ∀ p ∈ byFlag, entryValue k p.2 = if p.1 ∈ names then some c!"True" else none)
    (h2 : ∀ n ∈ names, n ∈ byFlag.map (·.1)) :
    argOr a arg (flagOr (extract env a.options a.flags) k before) = (says [arg] k names a).getD before := by
  unfold argOr says
  rw [flagOr_extract env a k names before hmem h1 h2]
  simp only [List.findSome?_cons, List.findSome?_nil]
  cases a.get arg with
  | none => rfl
  | some v => simp [boolParser_eq]

/-! ### Histories -/

theorem session_snoc_request (h : List Ev) (a : Args) (l : Bool) :
    session (h ++ [.request a l]) = session h ++ [a] := by simp [session]

theorem session_snoc_connect (h : List Ev) : session (h ++ [.connect]) = [] := by simp [session]

theorem inForce_request {α : Type} (d : α) (say : Args → Option α) (h : List Ev) (a : Args) (l : Bool) :
    inForce d say (h ++ [.request a l]) = (say a).getD (inForce d say h) := by
  unfold inForce
  rw [session_snoc_request, List.reverse_append]
  simp only [List.reverse_cons, List.reverse_nil, List.nil_append, List.singleton_append, List.findSome?_cons]
  cases say a <;> rfl

theorem inForce_connect {α : Type} (d : α) (say : Args → Option α) (h : List Ev) :
    inForce d say (h ++ [.connect]) = d := by
  unfold inForce; rw [session_snoc_connect]; rfl

theorem run_snoc (env : Env) (h : List Ev) (e : Ev) : run env (h ++ [e]) = step env (run env h) e := by
  simp [run]

/-- Induction over histories from their end. -/
theorem snoc_ind {p : List Ev → Prop} (h0 : p []) (h1 : ∀ h e, p h → p (h ++ [e])) (h : List Ev) : p h := by
  have : ∀ n, ∀ h : List Ev, h.length = n → p h := by
    intro n
    induction n with
    | zero => intro h hl; rw [List.length_eq_zero_iff.1 hl]; exact h0
    | succ n ih =>
      intro h hl
      rcases List.eq_nil_or_concat h with rfl | ⟨t, e, rfl⟩
      · simp at hl
      · rw [List.concat_eq_append] at hl ⊢
        exact h1 t e (ih t (by simp at hl; omega))
  exact this _ h rfl

/-! ## C87 -/

/-- **C87, flags.** After any history of clients that connect and send launch and attach requests, each setting is
what the last request of the current client that says something about it says, and the default if none does: an
argument counts before an entry of the options text, and that before a flag of the old list. -/
theorem c87_settings (env : Env) (h : List Ev) :
    (run env h).opts.justMyCode = inForce true justMyCodeSays h ∧
    (run env h).opts.redirectOutput = inForce false redirectOutput h ∧
    (run env h).opts.showReturn = inForce false showReturnValue h ∧
    (run env h).opts.breakZero = inForce false breakOnExitZero h ∧
    (run env h).opts.django = inForce false django h ∧
    (run env h).opts.flask = inForce false flask h ∧
    (run env h).opts.stopOnEntry = inForce false stopOnEntry h := by
  induction h using snoc_ind with
  | h0 => exact ⟨rfl, rfl, rfl, rfl, rfl, rfl, rfl⟩
  | h1 h e ih =>
    rw [run_snoc]
    cases e with
    | connect =>
      simp only [inForce_connect]
      exact ⟨rfl, rfl, rfl, rfl, rfl, rfl, rfl⟩
    | request a l =>
      obtain ⟨i1, i2, i3, i4, i5, i6, i7⟩ := ih
      simp only [inForce_request, ← i1, ← i2, ← i3, ← i4, ← i5, ← i6, ← i7]
      generalize run env h = s
      simp only [step, Opts.fromArgs, Opts.fromOptions]
      refine ⟨?_, ?_, ?_, ?_, ?_, ?_, ?_⟩
      · unfold justMyCodeSays
        cases a.get c!"justMyCode" with
        | some v => simp [boolParser_eq]
        | none =>
          simp only
          unfold says
          simp only [List.findSome?_cons, List.findSome?_nil]
          cases a.get c!"debugStdLib" with
          | some v => simp [boolParser_eq]
          | none =>
            simp only
            rw [flagOr_extract env a c!"DEBUG_STDLIB" [c!"DebugStdLib"] _ (by decide +kernel) (by decide +kernel) (by decide +kernel)]
            cases optionSays c!"DEBUG_STDLIB" [c!"DebugStdLib"] a <;> simp
      · exact argOr_says env a _ _ _ _ (by decide +kernel) (by decide +kernel) (by decide +kernel)
      · exact argOr_says env a _ _ _ _ (by decide +kernel) (by decide +kernel) (by decide +kernel)
      · exact argOr_says env a _ _ _ _ (by decide +kernel) (by decide +kernel) (by decide +kernel)
      · exact argOr_says env a _ _ _ _ (by decide +kernel) (by decide +kernel) (by decide +kernel)
      · rw [argOr_says env a _ _ [c!"Flask", c!"Jinja"] _ (by decide +kernel) (by decide +kernel) (by decide +kernel)]
        unfold argOr flask says
        simp only [List.findSome?_cons, List.findSome?_nil]
        cases a.get c!"jinja" with
        | none => rfl
        | some v => simp [boolParser_eq]
      · exact argOr_says env a _ _ _ _ (by decide +kernel) (by decide +kernel) (by decide +kernel)

/-- The system of the client, in the same way. -/
theorem c87_client_os (env : Env) (h : List Ev) :
    (run env h).opts.clientOs = inForce none (fun a => (clientOsSays env a).map some) h := by
  induction h using snoc_ind with
  | h0 => rfl
  | h1 h e ih =>
    rw [run_snoc]
    cases e with
    | connect => simp only [inForce_connect]; rfl
    | request a l =>
      simp only [inForce_request, ← ih]
      generalize run env h = s
      simp only [step, Opts.fromArgs, Opts.fromOptions]
      unfold clientOsSays
      cases a.get c!"clientOS" with
      | some v => rfl
      | none =>
        simp only [Option.map_none, Option.getD_none]
        unfold textOr
        have hp : ∀ v, parseValue env c!"CLIENT_OS_TYPE" v = some (.text (env.unquote v)) := by
          intro v; unfold parseValue
          rw [if_neg (by decide +kernel), if_pos rfl]
        rw [get_extract env a _ (by decide) (fun v => by rw [hp]; simp)]
        have hfl : lastEntry (build a.flags) c!"CLIENT_OS_TYPE" = a.flags.reverse.findSome? (fun f =>
            if f = c!"WindowsClient" then some c!"WINDOWS" else if f = c!"UnixClient" then some c!"UNIX" else none) := by
          rw [build_entries]
          apply findSome_congr
          intro f
          cases hg : Py.Dict.get byFlag f with
          | none =>
            have hn := (Py.Dict.get_none_iff byFlag f).1 hg
            rw [if_neg (fun hc => hn (by rw [hc]; decide +kernel)), if_neg (fun hc => hn (by rw [hc]; decide +kernel))]
            rfl
          | some e =>
            have hall : ∀ p ∈ byFlag, entryValue c!"CLIENT_OS_TYPE" p.2 =
              if p.1 = c!"WindowsClient" then some c!"WINDOWS" else if p.1 = c!"UnixClient" then some c!"UNIX" else none := by
              decide +kernel
            exact hall _ (Py.Dict.mem_of_get hg)
        rw [hfl]
        match a.options with
        | some (c :: cs) =>
          simp only
          cases lastEntry (c :: cs) c!"CLIENT_OS_TYPE" with
          | none => rfl
          | some v => simp [hp]
        | none =>
          simp only
          generalize List.findSome? _ a.flags.reverse = o
          cases o with
          | none => rfl
          | some v => simp [hp]
        | some [] =>
          simp only
          generalize List.findSome? _ a.flags.reverse = o
          cases o with
          | none => rfl
          | some v => simp [hp]

/-- **C87, what a session does.** When a client sent its request, the debugger steps over library code, redirects
output, shows return values, and ignores codes of `SystemExit`, as the settings in force say; and a launch that
asked for it stops at the entry. -/
theorem c87_effects (env : Env) (h : List Ev) (a : Args) (l : Bool) :
    let h' := h ++ [.request a l]
    let db := (run env h').db
    db.librariesFilter = inForce true justMyCodeSays h' ∧
    db.redirect = inForce false redirectOutput h' ∧
    db.showReturn = inForce false showReturnValue h' ∧
    (db.stopAtEntry = true ↔ (run env h).db.stopAtEntry = true ∨ (l = true ∧ inForce false stopOnEntry h' = true)) ∧
    (inForce false breakOnExitZero h' = false → ∀ c, ignoresExit db c = true ↔
      c = .int 0 ∨ c = .none ∨ (c = .int 3 ∧ (inForce false django h' = true ∨ inForce false flask h' = true))) := by
  intro h' db
  obtain ⟨i1, i2, i3, i4, i5, i6, i7⟩ := c87_settings env h'
  rw [← i1, ← i2, ← i3, ← i4, ← i5, ← i6, ← i7]
  have hdb : db = applyOpts env (run env h').opts a l (run env h).db := by
    show (run env (h ++ [.request a l])).db = applyOpts env (run env (h ++ [.request a l])).opts a l (run env h).db
    rw [run_snoc]; rfl
  rw [hdb]
  refine ⟨rfl, rfl, rfl, ?_, ?_⟩
  · simp only [applyOpts, Bool.or_eq_true, Bool.and_eq_true]
    constructor
    · rintro (h | ⟨h1, h2⟩)
      · exact Or.inl h
      · exact Or.inr ⟨h2, h1⟩
    · rintro (h | ⟨h1, h2⟩)
      · exact Or.inl h
      · exact Or.inr ⟨h2, h1⟩
  · intro hb c
    simp only [ignoresExit, applyOpts, hb, Bool.false_eq_true, if_false]
    by_cases hdj : ((run env h').opts.django || (run env h').opts.flask) = true
    · rw [if_pos hdj]
      simp only [Bool.or_eq_true] at hdj
      simp [hdj]
    · rw [if_neg hdj]
      simp only [Bool.or_eq_true] at hdj
      simp [hdj]

/-- Every request of the process wanted a stop at `sys.exit(0)`. -/
def AlwaysBreak (h : List Ev) : Prop :=
  ∀ pre a l post, h = pre ++ .request a l :: post → inForce false breakOnExitZero (pre ++ [.request a l]) = true

/-- When each client of the process asked to stop at `sys.exit(0)`, no code is ignored. -/
theorem c87_exit_zero (env : Env) (h : List Ev) (hb : AlwaysBreak h) (c : Code) :
    ignoresExit (run env h).db c = false := by
  have : (run env h).db.ignored = [] := by
    induction h using snoc_ind with
    | h0 => rfl
    | h1 h e ih =>
      have hb' : AlwaysBreak h := by
        intro pre a l post he
        exact hb pre a l (post ++ [e]) (by rw [he]; simp)
      have ih := ih hb'
      cases e with
      | connect => rw [run_snoc]; exact ih
      | request a l =>
        have h1 := hb h a l [] rfl
        have h2 := (c87_settings env (h ++ [.request a l])).2.2.2.1
        rw [h1, run_snoc] at h2
        rw [run_snoc]
        simp only [step] at h2 ⊢
        simp only [applyOpts, h2, if_true]
        exact ih
  simp [ignoresExit, this]

/-! ### Variables and paths -/

/-- The ways of showing a group. -/
def shownName : Shown → Str
  | .group => c!"group"
  | .inline => c!"inline"
  | .hide => c!"hide"

/-- `w` is the way the request asks for: its own setting when that is valid, otherwise the one for all groups when
that is valid, otherwise grouped. -/
def Asked (get : Str → Option JV) (setting : Str) (w : Shown) : Prop :=
  get setting = some (.str (shownName w)) ∨
  ((∀ x, get setting ≠ some (.str (shownName x))) ∧
    (get c!"all" = some (.str (shownName w)) ∨
      ((∀ x, get c!"all" ≠ some (.str (shownName x))) ∧ w = .group)))

theorem shownOf_iff (v : JV) (w : Shown) : shownOf v = some w ↔ v = .str (shownName w) := by
  cases v with
  | str s =>
    simp only [shownOf]
    constructor
    · intro h
      split at h
      · injection h with h; subst h; rename_i hs; rw [hs]; rfl
      · split at h
        · injection h with h; subst h; rename_i hs; rw [hs]; rfl
        · split at h
          · injection h with h; subst h; rename_i hs; rw [hs]; rfl
          · simp at h
    · intro h
      injection h with h
      subst h
      cases w <;> decide
  | bool b => simp [shownOf]
  | num n => simp [shownOf]
  | null => simp [shownOf]

theorem presentationOf_spec (get : Str → Option JV) (s : Str) (d : Shown) :
    get s = some (.str (shownName (presentationOf get s d))) ∨
    ((∀ x, get s ≠ some (.str (shownName x))) ∧ presentationOf get s d = d) := by
  unfold presentationOf
  cases hg : get s with
  | none => right; exact ⟨by simp, rfl⟩
  | some v =>
    cases hv : shownOf v with
    | some w =>
      left
      show some v = some (.str (shownName ((shownOf v).getD d)))
      rw [hv, Option.getD_some, ← (shownOf_iff v w).1 hv]
    | none =>
      right
      refine ⟨?_, by simp [hv]⟩
      intro x hx
      injection hx with hx
      rw [(shownOf_iff v x).2 hx] at hv
      simp at hv

/-- **C87, groups of variables.** -/
theorem c87_presentation (env : Env) (h : List Ev) (a : Args) (l : Bool) (g : Str → Option JV)
    (hg : a.presentation = some g) :
    let db := (run env (h ++ [.request a l])).db
    Asked g c!"special" db.special ∧ Asked g c!"function" db.function ∧ Asked g c!"class" db.class_ ∧
    Asked g c!"protected" db.protected_ := by
  have key : ∀ s, Asked g s (presentationOf g s (presentationOf g c!"all" .group)) := by
    intro s
    rcases presentationOf_spec g s (presentationOf g c!"all" .group) with h | ⟨h1, h2⟩
    · exact Or.inl h
    · refine Or.inr ⟨h1, ?_⟩
      rw [h2]
      exact presentationOf_spec g c!"all" .group
  rw [run_snoc]
  simp only [step, applyOpts, hg]
  exact ⟨key _, key _, key _, key _⟩

/-- Where the remote side of a mapping is: `.` is the directory of the process, with a separator at the end if the
local side has one. -/
def remoteSide (env : Env) (m : Str × Str) : Str :=
  if m.2 = c!"." then
    (if m.1.getLast? = some '/' ∨ m.1.getLast? = some '\\' then env.cwd ++ [env.sep] else env.cwd)
  else m.2

/-- The mappings a request gives: the ones with both sides, in their order. -/
def mappingsSaid (env : Env) (a : Args) : List (Str × Str) :=
  (a.mappings.filter (fun m => !m.1.isEmpty && !m.2.isEmpty)).map (fun m => (m.1, remoteSide env m))

theorem endsWith_one (s : Str) (c : Char) : Py.endsWith s [c] = true ↔ s.getLast? = some c := by
  rw [Py.endsWith, List.isSuffixOf_iff_suffix]
  constructor
  · rintro ⟨t, rfl⟩; simp
  · intro h
    rcases List.eq_nil_or_concat s with rfl | ⟨t, e, rfl⟩
    · simp at h
    · rw [List.concat_eq_append] at h ⊢
      simp at h
      exact ⟨t, by rw [h]⟩

theorem mappingsOf_eq (env : Env) (a : Args) (hc : env.cwd ≠ []) : mappingsOf env a = mappingsSaid env a := by
  unfold mappingsOf mappingsSaid
  generalize a.mappings = ms
  have hr : ∀ m : Str × Str, remoteRoot env m.1 m.2 = remoteSide env m := by
    intro m
    unfold remoteRoot remoteSide
    by_cases h : m.2 = c!"."
    · rw [if_pos h, if_pos h]
      have e1 := endsWith_one m.1 '\\'
      have e2 := endsWith_one m.1 '/'
      by_cases h2 : m.1.getLast? = some '/' ∨ m.1.getLast? = some '\\'
      · rw [if_pos h2, if_pos]
        rw [Bool.or_eq_true, e1, e2]
        exact h2.symm
      · rw [if_neg h2, if_neg]
        · simp
        · rw [Bool.or_eq_true, e1, e2]
          exact fun hh => h2 hh.symm
    · rw [if_neg h, if_neg h]
  have hne : ∀ m : Str × Str, remoteSide env m ≠ [] ↔ m.2 ≠ [] := by
    intro m
    unfold remoteSide
    by_cases h : m.2 = c!"."
    · rw [if_pos h, h]
      split <;> simp [hc]
    · rw [if_neg h]
  induction ms with
  | nil => rfl
  | cons m ms ih =>
    rw [List.filterMap_cons, List.filter_cons]
    simp only [hr] at ih ⊢
    by_cases hm : m.1 ≠ [] ∧ remoteSide env m ≠ []
    · rw [if_pos hm]
      have h2 : (!m.1.isEmpty && !m.2.isEmpty) = true := by
        have := (hne m).1 hm.2
        simp [hm.1, this]
      rw [if_pos h2, List.map_cons, ih]
    · rw [if_neg hm]
      have h2 : ¬ (!m.1.isEmpty && !m.2.isEmpty) = true := by
        intro hh
        simp only [Bool.and_eq_true, Bool.not_eq_true', List.isEmpty_eq_false_iff] at hh
        exact hm ⟨hh.1, (hne m).2 hh.2⟩
      rw [if_neg h2, ih]

/-- All requests of the process. -/
def requests (h : List Ev) : List Args :=
  h.filterMap (fun e => match e with
    | .connect => none
    | .request a _ => some a)

/-- **C87, paths.** The path mappings in force are the ones of the last request, of any client, that gives any. -/
theorem c87_mappings (env : Env) (h : List Ev) (hc : env.cwd ≠ []) :
    (run env h).db.mappings = (((requests h).map (mappingsSaid env)).reverse.find? (fun m => !m.isEmpty)).getD [] := by
  induction h using snoc_ind with
  | h0 => rfl
  | h1 h e ih =>
    rw [run_snoc]
    cases e with
    | connect => simpa [requests, step] using ih
    | request a l =>
      have hr : requests (h ++ [.request a l]) = requests h ++ [a] := by simp [requests]
      rw [hr]
      simp only [step, applyOpts, mappingsOf_eq env a hc, List.map_append, List.map_cons, List.map_nil,
        List.reverse_append, List.reverse_cons, List.reverse_nil, List.nil_append, List.singleton_append,
        List.find?_cons]
      by_cases hm : mappingsSaid env a = []
      · rw [if_pos hm, hm, ih]; rfl
      · rw [if_neg hm]
        cases hh : mappingsSaid env a with
        | nil => exact absurd hh hm
        | cons x xs => rfl

/-- What the last request of the process, of any client, that says something says. -/
def lastSaid {α : Type} (say : Args → Option α) (h : List Ev) : Option α := (requests h).reverse.findSome? say

theorem lastSaid_connect {α : Type} (say : Args → Option α) (h : List Ev) : lastSaid say (h ++ [.connect]) = lastSaid say h := by
  simp [lastSaid, requests]

theorem lastSaid_request {α : Type} (say : Args → Option α) (h : List Ev) (a : Args) (l : Bool) :
    lastSaid say (h ++ [.request a l]) = (say a).or (lastSaid say h) := by
  simp only [lastSaid, requests, List.filterMap_append, List.filterMap_cons, List.filterMap_nil, List.reverse_append,
    List.reverse_cons, List.reverse_nil, List.nil_append, List.singleton_append, List.findSome?_cons]
  cases say a <;> rfl

/-- **C87, what the last request decides alone.** Whether stepping resumes all threads, whether child processes end with the
session (both unless it says otherwise), whether ending is a `KeyboardInterrupt`, and how many frames of an exception are shown. -/
theorem c87_last_request (env : Env) (h : List Ev) (a : Args) (l : Bool) :
    let s := run env (h ++ [.request a l])
    s.db.resumesAll = (a.get c!"steppingResumesAllThreads").getD (.bool true) ∧
    s.db.terminateChildren = (a.get c!"terminateChildProcesses").getD (.bool true) ∧
    (s.db.keyboardInterrupt = true ↔ a.get c!"onTerminate" = some (.str c!"KeyboardInterrupt")) ∧
    s.opts.maxFrames = env.toInt ((a.get c!"maxExceptionStackFrames").getD (.num 0)) ∧
    s.db.redirected = if inForce false redirectOutput (h ++ [.request a l]) = true then some (.bool true) else a.get c!"isOutputRedirected" := by
  obtain ⟨_, i2, _⟩ := c87_settings env (h ++ [.request a l])
  rw [← i2, run_snoc]
  refine ⟨rfl, rfl, ?_, rfl, rfl⟩
  have hd : ∀ o : Option JV, o.getD (.str c!"kill") = .str c!"KeyboardInterrupt" ↔ o = some (.str c!"KeyboardInterrupt") := by
    intro o
    cases o with
    | none => simp only [Option.getD_none]; decide
    | some v => simp
  rw [← hd]
  exact decide_eq_true_iff

/-- **C87, what stays.** Whether all threads stop is what the last request of the process says that says something (other than
`null`); the system of the client is the last one named in a request that was in force and not empty. -/
theorem c87_kept (env : Env) (h : List Ev) :
    (run env h).db.single = (lastSaid (fun a => match a.get c!"stopAllThreadsOnSuspend" with | some .null => none | v => v) h).getD (.bool false) ∧
    (run env h).opts.gui = inForce c!"matplotlib" (fun a => (a.get c!"guiEventLoop").map env.toStr) h ∧
    ∀ a l, (run env (h ++ [.request a l])).db.ideOs =
      match inForce none (fun a => (clientOsSays env a).map some) (h ++ [.request a l]) with
      | none | some [] => (run env h).db.ideOs
      | some (c :: cs) => some (c :: cs) := by
  refine ⟨?_, ?_, ?_⟩
  · induction h using snoc_ind with
    | h0 => rfl
    | h1 h e ih =>
      rw [run_snoc]
      cases e with
      | connect => rw [lastSaid_connect, ← ih]; rfl
      | request a l =>
        rw [lastSaid_request]
        simp only [step, applyOpts]
        cases a.get c!"stopAllThreadsOnSuspend" with
        | none => exact ih
        | some v => cases v <;> first | exact ih | rfl
  · induction h using snoc_ind with
    | h0 => rfl
    | h1 h e ih =>
      rw [run_snoc]
      cases e with
      | connect => rw [inForce_connect]; rfl
      | request a l =>
        rw [inForce_request, ← ih]
        rfl
  · intro a l
    rw [← c87_client_os, run_snoc]
    simp only [step, applyOpts]
    generalize (Opts.fromArgs env _ a).clientOs = o
    match o with
    | none => rfl
    | some [] => rfl
    | some (c :: cs) => simp

/-- **C87, values returned by functions.** They are taken out of the frames again exactly from the time on when a request
turned them off that were shown before. -/
theorem c87_remove_returns (env : Env) (h : List Ev) : (run env h).db.removeReturns = true ↔
    ∃ pre a l post, h = pre ++ .request a l :: post ∧ (run env pre).db.showReturn = true ∧
      (run env (pre ++ [.request a l])).db.showReturn = false := by
  induction h using snoc_ind with
  | h0 => simp [run]
  | h1 h e ih =>
    rw [run_snoc]
    have back : (∃ pre a l post, h = pre ++ Ev.request a l :: post ∧
        (run env pre).db.showReturn = true ∧ (run env (pre ++ [.request a l])).db.showReturn = false) →
        ∃ pre a l post, h ++ [e] = pre ++ Ev.request a l :: post ∧
        (run env pre).db.showReturn = true ∧ (run env (pre ++ [.request a l])).db.showReturn = false := by
      rintro ⟨pre, a, l, post, rfl, h1, h2⟩
      exact ⟨pre, a, l, post ++ [e], by simp, h1, h2⟩
    have front : (∃ pre a l post, h ++ [e] = pre ++ Ev.request a l :: post ∧
        (run env pre).db.showReturn = true ∧ (run env (pre ++ [.request a l])).db.showReturn = false) →
        (run env h).db.removeReturns = true ∨ ∃ a l, e = .request a l ∧ (run env h).db.showReturn = true ∧
          (run env (h ++ [.request a l])).db.showReturn = false := by
      rintro ⟨pre, a, l, post, he, h1, h2⟩
      rcases List.eq_nil_or_concat post with rfl | ⟨post, x, rfl⟩
      · have := List.append_inj' he rfl
        obtain ⟨rfl, hx⟩ := this
        simp only [List.cons.injEq, and_true] at hx
        exact .inr ⟨a, l, hx, h1, h2⟩
      · rw [List.concat_eq_append, ← List.cons_append, ← List.append_assoc] at he
        have := (List.append_inj' he rfl).1
        exact .inl (ih.2 ⟨pre, a, l, post, this, h1, h2⟩)
    cases e with
    | connect =>
      constructor
      · intro hh; exact back (ih.1 hh)
      · intro hh
        rcases front hh with hh | ⟨a, l, hc, _⟩
        · exact hh
        · cases hc
    | request a l =>
      constructor
      · intro hh
        simp only [step, applyOpts, Bool.or_eq_true, Bool.and_eq_true, Bool.not_eq_true'] at hh
        rcases hh with hh | ⟨h1, h2⟩
        · exact back (ih.1 hh)
        · refine ⟨h, a, l, [], rfl, h1, ?_⟩
          rw [run_snoc]; exact h2
      · intro hh
        simp only [step, applyOpts, Bool.or_eq_true, Bool.and_eq_true, Bool.not_eq_true']
        rcases front hh with hh | ⟨a', l', hc, h1, h2⟩
        · exact .inl hh
        · cases hc
          rw [run_snoc] at h2
          exact .inr ⟨h1, h2⟩

/-! ## What is not so -/

def anyEnv : Env := ⟨fun _ => 0, fun _ => c!"x", id, id, c!"/app", '/'⟩

def noArgs : Args := ⟨fun _ => none, none, [], none, []⟩

def breakZeroArgs : Args :=
  { noArgs with get := fun k => if k = c!"breakOnSystemExitZero" then some (.bool true) else none }

/-- A second client that asks to stop at `sys.exit(0)` does not get it when the first did not ask: the codes to
ignore are only ever set, never taken back. -/
theorem c87_exit_zero_witness :
    inForce false breakOnExitZero [.connect, .request noArgs false, .connect, .request breakZeroArgs false] = true ∧
    ignoresExit (run anyEnv [.connect, .request noArgs false, .connect, .request breakZeroArgs false]).db (.int 0) = true := by
  decide +kernel

/-- A client that only names a way to show special variables changes how protected ones are shown. -/
theorem c87_presentation_witness :
    let g : Str → Option JV := fun k => if k = c!"special" then some (.str c!"hide") else none
    (run anyEnv [.connect, .request noArgs false]).db.protected_ = .inline ∧
    (run anyEnv [.connect, .request { noArgs with presentation := some g } false]).db.protected_ = .group := by
  decide +kernel

/-- A mapping of a client stays in force for the next one. -/
theorem c87_mappings_witness :
    (run anyEnv [.connect, .request { noArgs with mappings := [(c!"/a", c!"/b")] } false, .connect, .request noArgs false]).db.mappings
      = [(c!"/a", c!"/b")] := by
  decide +kernel

/-! ## A case -/

/-- A launch with an options text, an argument that overrides it, and the old name of a setting. -/
def sampleArgs : Args where
  get := fun k => if k = c!"redirectOutput" then some (.str c!"false")
    else if k = c!"debugStdLib" then some (.num 1) else none
  options := some c!"REDIRECT_OUTPUT=True;STOP_ON_ENTRY=1;FLASK_DEBUG=true;FLASK_DEBUG=no;bad;X=1;DJANGO_DEBUG=1"
  flags := [c!"ShowReturnValue"]
  presentation := none
  mappings := [(c!"/src/", c!"."), (c!"", c!"/x")]

theorem c87_example :
    let db := (run anyEnv [.connect, .request sampleArgs true]).db
    db.librariesFilter = false ∧ db.redirect = false ∧ db.stopAtEntry = true ∧ db.showReturn = false ∧
    ignoresExit db (.int 3) = true ∧ ignoresExit db (.int 1) = false ∧
    db.mappings = [(c!"/src/", c!"/app/")] ∧
    (run anyEnv [.connect, .request { noArgs with flags := [c!"Jinja", c!"UnixClient", c!"WindowsClient", c!"Nope"] } true]).opts =
      { flask := true, clientOs := some c!"WINDOWS" } ∧
    AlwaysBreak [.connect] := by
  refine ⟨?_, ?_, ?_, ?_, ?_, ?_, ?_, ?_, ?_⟩
  all_goals try decide +kernel
  intro pre a l post h
  rcases pre with _ | ⟨_, _ | ⟨_, _⟩⟩ <;> simp at h

end Options
