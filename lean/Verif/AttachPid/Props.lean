import Verif.AttachPid.Model
import Verif.AttachPid.Spec
/-!
C130: attaching to a process runs in it the code to attach with the options that were given.
-/

namespace AttachPid

open Spec

/-! ### The options -/

/-- an option with its value, as it is on the command line -/
inductive Opt
  | port (n : Int)
  | pid (n : Int)
  | host (v : Str)
  | protocol (v : Str)
  | mode (v : Str)

/-- its arguments -/
def Opt.args : Opt → List Str
  | .port n => [c!"--port", Py.intStr n]
  | .pid n => [c!"--pid", Py.intStr n]
  | .host v => [c!"--host", v]
  | .protocol v => [c!"--protocol", v]
  | .mode v => [c!"--debug-mode", v]

/-- the last value of an option, or the default -/
def last {α : Type} (f : Opt → Option α) (d : α) (os : List Opt) : α := (os.filterMap f).getLastD d

def getPort : Opt → Option Int | .port n => some n | _ => none
def getPid : Opt → Option Int | .pid n => some n | _ => none
def getHost : Opt → Option Str | .host v => some v | _ => none
def getProtocol : Opt → Option Str | .protocol v => some v | _ => none
def getMode : Opt → Option Str | .mode v => some v | _ => none

theorem getLastD_cons' {α : Type} (a d : α) (l : List α) : (a :: l).getLastD d = l.getLastD a := by
  cases l <;> rfl

theorem parseArgs_options (os : List Opt) (s : Setup) :
    parseArgs s (os.flatMap Opt.args) =
      (if last getPid s.pid os = 0 then .exit
       else .ok ⟨last getPort s.port os, last getPid s.pid os, last getHost s.host os, last getProtocol s.protocol os, last getMode s.mode os⟩) := by
  induction os generalizing s with
  | nil => simp only [List.flatMap_nil, parseArgs]; rfl
  | cons o os ih =>
    cases o with
    | port n =>
      simp only [List.flatMap_cons, Opt.args, List.cons_append, List.nil_append]
      rw [parseArgs, if_pos rfl, Py.parseInt_intStr]
      simp only [ih]
      simp only [last, List.filterMap_cons, getPort, getPid, getHost, getProtocol, getMode, getLastD_cons']
      rfl
    | pid n =>
      simp only [List.flatMap_cons, Opt.args, List.cons_append, List.nil_append]
      rw [parseArgs, if_neg (by decide), if_pos rfl, Py.parseInt_intStr]
      simp only [ih]
      simp only [last, List.filterMap_cons, getPort, getPid, getHost, getProtocol, getMode, getLastD_cons']
      rfl
    | host v =>
      simp only [List.flatMap_cons, Opt.args, List.cons_append, List.nil_append]
      rw [parseArgs, if_neg (by decide), if_neg (by decide), if_pos rfl, ih]
      simp only [last, List.filterMap_cons, getPort, getPid, getHost, getProtocol, getMode, getLastD_cons']
      rfl
    | protocol v =>
      simp only [List.flatMap_cons, Opt.args, List.cons_append, List.nil_append]
      rw [parseArgs, if_neg (by decide), if_neg (by decide), if_neg (by decide), if_pos rfl, ih]
      simp only [last, List.filterMap_cons, getPort, getPid, getHost, getProtocol, getMode, getLastD_cons']
      rfl
    | mode v =>
      simp only [List.flatMap_cons, Opt.args, List.cons_append, List.nil_append]
      rw [parseArgs, if_neg (by decide), if_neg (by decide), if_neg (by decide), if_neg (by decide), if_pos rfl, ih]
      simp only [last, List.filterMap_cons, getPort, getPid, getHost, getProtocol, getMode, getLastD_cons']
      rfl

/-- C130. Options may be given in any order; each has its last value, or its default; without a process there is an error message. -/
theorem c130_options (os : List Opt) :
    processCommandLine (os.flatMap Opt.args) =
      (if last getPid 0 os = 0 then .exit
       else .ok ⟨last getPort 5678 os, last getPid 0 os, last getHost c!"127.0.0.1" os, last getProtocol [] os, last getMode [] os⟩) :=
  parseArgs_options os {}

/-- C130. After some options an argument that is not an option makes the command run forever. -/
theorem c130_unknown_witness (os : List Opt) (a : Str) (rest : List Str) (ha : isOption a = false) :
    processCommandLine (os.flatMap Opt.args ++ a :: rest) = .hang := by
  have base : ∀ s, parseArgs s (a :: rest) = .hang := by
    intro s
    simp only [isOption, Bool.or_eq_false_iff, beq_eq_false_iff_ne] at ha
    obtain ⟨⟨⟨⟨h1, h2⟩, h3⟩, h4⟩, h5⟩ := ha
    cases rest with
    | nil => simp [parseArgs, isOption, h1, h2, h3, h4, h5]
    | cons v rest => rw [parseArgs, if_neg h1, if_neg h2, if_neg h3, if_neg h4, if_neg h5]
  unfold processCommandLine
  generalize ({} : Setup) = s
  induction os generalizing s with
  | nil => exact base s
  | cons o os ih =>
    cases o with
    | port n =>
      simp only [List.flatMap_cons, Opt.args, List.cons_append, List.nil_append]
      rw [parseArgs, if_pos rfl, Py.parseInt_intStr]
      exact ih _
    | pid n =>
      simp only [List.flatMap_cons, Opt.args, List.cons_append, List.nil_append]
      rw [parseArgs, if_neg (by decide), if_pos rfl, Py.parseInt_intStr]
      exact ih _
    | host v =>
      simp only [List.flatMap_cons, Opt.args, List.cons_append, List.nil_append]
      rw [parseArgs, if_neg (by decide), if_neg (by decide), if_pos rfl]
      exact ih _
    | protocol v =>
      simp only [List.flatMap_cons, Opt.args, List.cons_append, List.nil_append]
      rw [parseArgs, if_neg (by decide), if_neg (by decide), if_neg (by decide), if_pos rfl]
      exact ih _
    | mode v =>
      simp only [List.flatMap_cons, Opt.args, List.cons_append, List.nil_append]
      rw [parseArgs, if_neg (by decide), if_neg (by decide), if_neg (by decide), if_neg (by decide), if_pos rfl]
      exact ih _

/-! ### The shell -/

/-- text the shell reads as it is -/
def Plain (p : Str) : Prop := ∀ c ∈ p, c ≠ '\'' ∧ c ≠ ' ' ∧ c ∉ metaChars

theorem words_plain (p : Str) (h : Plain p) : ∀ (cur : Option Str) (rest : Str), p ≠ [] →
    words cur false (p ++ rest) = words (some (cur.getD [] ++ p)) false rest := by
  induction p with
  | nil => intro _ _ h; exact absurd rfl h
  | cons c p ih =>
    intro cur rest _
    obtain ⟨h1, h2, h3⟩ := h c (List.mem_cons_self ..)
    rw [List.cons_append]
    have hw : words cur false (c :: (p ++ rest)) = words (some (cur.getD [] ++ [c])) false (p ++ rest) := by
      cases cur <;> rw [words, if_neg h1, if_neg h2, if_neg h3]
    rw [hw]
    cases p with
    | nil => rfl
    | cons d p =>
      rw [ih (fun x hx => h x (List.mem_cons_of_mem _ hx)) _ _ (by simp)]
      simp

theorem words_quoted (q : Str) (h : '\'' ∉ q) : ∀ (w rest : Str),
    words (some w) true (q ++ '\'' :: rest) = words (some (w ++ q)) false rest := by
  induction q with
  | nil => intro w rest; simp [words]
  | cons c q ih =>
    intro w rest
    rw [List.cons_append, words, if_neg (by rintro rfl; exact h (List.mem_cons_self ..))]
    rw [Option.getD_some, ih (fun hx => h (List.mem_cons_of_mem _ hx))]
    simp

/-- the text `p` is read as the word `w` -/
def Reads (p w : Str) : Prop := ∀ rest, words none false (p ++ rest) = words (some w) false rest

theorem reads_plain {p : Str} (h : Plain p) (hne : p ≠ []) : Reads p p := by
  intro rest
  rw [words_plain p h none rest hne]
  rfl

theorem reads_quoted {p q : Str} (h : Plain p) (hne : p ≠ []) (hq : '\'' ∉ q) : Reads (p ++ '\'' :: (q ++ c!"'")) (p ++ q) := by
  intro rest
  rw [List.append_assoc, words_plain p h none _ hne]
  rw [List.cons_append, words, if_pos rfl, List.append_assoc]
  show words _ true (q ++ '\'' :: rest) = _
  rw [words_quoted q hq]
  rfl

/-- the texts are read as the words, one by one -/
inductive ReadsAll : List Str → List Str → Prop
  | nil : ReadsAll [] []
  | cons {p w ps ws} : Reads p w → ReadsAll ps ws → ReadsAll (p :: ps) (w :: ws)

theorem ReadsAll.append {ps ws qs vs : List Str} (h : ReadsAll ps ws) (h' : ReadsAll qs vs) : ReadsAll (ps ++ qs) (ws ++ vs) := by
  induction h with
  | nil => exact h'
  | cons hp _ ih => exact .cons hp ih

theorem shell_join {ps ws : List Str} (h : ReadsAll ps ws) : shell (Py.join1 ' ' ps) = some ws := by
  induction h with
  | nil => rfl
  | cons hp hps ih =>
    rename_i p w ps ws
    cases hps with
    | nil =>
      have := hp []
      rw [List.append_nil] at this
      simp only [Py.join1, shell]
      rw [this]
      rfl
    | cons hp' hps' =>
      rename_i p' w' ps ws
      simp only [shell] at ih ⊢
      rw [Py.join1, hp, words, if_neg (by decide), if_pos rfl]
      simp only [ih]
      rfl

theorem plain_intStr (i : Int) : Plain (Py.intStr i) := by
  have hd : ∀ c, Py.isDigit c = true → c ≠ '\'' ∧ c ≠ ' ' ∧ c ∉ metaChars := by
    intro c hc
    refine ⟨?_, ?_, ?_⟩
    · rintro rfl; revert hc; decide
    · rintro rfl; revert hc; decide
    · intro hm
      have : ∀ c ∈ metaChars, Py.isDigit c = false := by decide
      rw [this c hm] at hc
      cases hc
  intro c hc
  cases i with
  | ofNat n => exact hd c (Py.natStr_digits n c hc)
  | negSucc n =>
    rcases List.mem_cons.mp hc with rfl | hc
    · decide
    · exact hd c (Py.natStr_digits _ c hc)

/-- the words of the arguments for the libraries to scan -/
def libWords (libs : Str) : List Str :=
  if Py.strip libs = [] then []
  else c!"--init-eval-command=set auto-solib-add off" ::
    (Py.split1 ',' (Py.strip libs)).map fun l => c!"--eval-command=sharedlibrary " ++ Py.strip l

theorem mem_strip {c : Char} {s : Str} (h : c ∈ Py.strip s) : c ∈ s := by
  unfold Py.strip Py.rstrip Py.lstrip at h
  have h1 := (List.dropWhile_suffix _).subset (List.mem_reverse.mp h)
  exact (List.dropWhile_suffix _).subset (List.mem_reverse.mp h1)

theorem mem_split1 {c sep : Char} {s w : Str} (hw : w ∈ Py.split1 sep s) (hc : c ∈ w) : c ∈ s := by
  have hj : ∀ (ws : List Str), w ∈ ws → c ∈ Py.join1 sep ws := by
    intro ws
    induction ws with
    | nil => intro h; cases h
    | cons x xs ih =>
      intro h
      cases xs with
      | nil =>
        rcases List.mem_singleton.mp h with rfl
        exact hc
      | cons y ys =>
        rw [Py.join1]
        rcases List.mem_cons.mp h with rfl | h
        · exact List.mem_append_left _ hc
        · exact List.mem_append_right _ (List.mem_cons_of_mem _ (ih h))
  have := hj _ hw
  rwa [Py.join1_split1] at this

theorem reads_libs (libs : Str) (h : '\'' ∉ libs) : ReadsAll (libArgs libs) (libWords libs) := by
  unfold libArgs libWords
  split
  · exact .nil
  · refine .cons (reads_quoted (p := c!"--init-eval-command=") (q := c!"set auto-solib-add off") ?_ ?_ ?_) ?_
    · unfold Plain; decide
    · decide
    · decide
    · have : ∀ l ∈ Py.split1 ',' (Py.strip libs), '\'' ∉ Py.strip l := by
        intro l hl hc
        exact h (mem_strip (mem_split1 hl (mem_strip hc)))
      generalize Py.split1 ',' (Py.strip libs) = ls at this
      induction ls with
      | nil => exact .nil
      | cons l ls ih =>
        refine .cons ?_ (ih fun x hx => this x (List.mem_cons_of_mem _ hx))
        have := reads_quoted (p := c!"--eval-command=") (q := c!"sharedlibrary " ++ Py.strip l) (by unfold Plain; decide) (by decide)
          (by
            intro hm
            rcases List.mem_append.mp hm with hm | hm
            · revert hm; decide
            · exact this l (List.mem_cons_self ..) hm)
        have e : c!"--eval-command='sharedlibrary " ++ Py.strip l ++ c!"'" =
            c!"--eval-command=" ++ '\'' :: ((c!"sharedlibrary " ++ Py.strip l) ++ c!"'") := by
          simp
        dsimp only
        rw [e]
        have e2 : c!"--eval-command=sharedlibrary " ++ Py.strip l = c!"--eval-command=" ++ (c!"sharedlibrary " ++ Py.strip l) := by
          simp
        rw [e2]
        exact this

/-- the words gdb is run with -/
def gdbWords (pid : Int) (libs dll dllName code : Str) : List Str :=
  [c!"gdb", c!"--nw", c!"--nh", c!"--nx", c!"--pid", Py.intStr pid, c!"--batch"] ++ libWords libs ++
  [c!"--eval-command=set scheduler-locking off",
   c!"--eval-command=set architecture auto",
   c!"--eval-command=call (void*)dlopen(\"" ++ dll ++ c!"\", 2)",
   c!"--eval-command=sharedlibrary " ++ dllName,
   c!"--eval-command=call (int)DoAttach(0, \"" ++ code ++ c!"\", 0)"]

theorem reads_eval (a x b : Str) {p w : Str} (ha : '\'' ∉ a) (hx : '\'' ∉ x) (hb : '\'' ∉ b)
    (hp : p = c!"--eval-command='" ++ a ++ x ++ b ++ c!"'") (hw : w = c!"--eval-command=" ++ a ++ x ++ b) : Reads p w := by
  subst hp hw
  have := reads_quoted (p := c!"--eval-command=") (q := a ++ x ++ b) (by unfold Plain; decide) (by decide)
    (by simp only [List.mem_append]; rintro ((h | h) | h); exact ha h; exact hx h; exact hb h)
  have e : c!"--eval-command='" ++ a ++ x ++ b ++ c!"'" = c!"--eval-command=" ++ '\'' :: ((a ++ x ++ b) ++ c!"'") := by simp
  rw [e]
  have e2 : c!"--eval-command=" ++ a ++ x ++ b = c!"--eval-command=" ++ (a ++ x ++ b) := by simp
  rw [e2]
  exact this

/-- C130. The shell runs gdb with these words, whatever the code is, if it and the names of libraries have no single quote. -/
theorem c130_shell (pid : Int) (libs dll dllName code : Str) (hl : '\'' ∉ libs) (hd : '\'' ∉ dll) (hn : '\'' ∉ dllName)
    (hc : '\'' ∉ code) :
    ∃ text, runLinux pid libs dll dllName code = some text ∧ shell text = some (gdbWords pid libs dll dllName code) := by
  refine ⟨_, by unfold runLinux; rw [if_neg hc], shell_join ?_⟩
  unfold command gdbWords
  refine ReadsAll.append (ReadsAll.append ?_ (reads_libs libs hl)) ?_
  · refine .cons (reads_plain ?_ (by decide)) (.cons (reads_plain ?_ (by decide)) (.cons (reads_plain ?_ (by decide))
      (.cons (reads_plain ?_ (by decide)) (.cons (reads_plain ?_ (by decide))
        (.cons (reads_plain (plain_intStr pid) (Py.intStr_ne_nil pid)) (.cons (reads_plain ?_ (by decide)) .nil))))))
    all_goals (unfold Plain; decide)
  · refine .cons ?_ (.cons ?_ (.cons ?_ (.cons ?_ (.cons ?_ .nil))))
    · exact reads_eval c!"set scheduler-locking off" [] [] (by decide) (by decide) (by decide) (by simp) (by simp)
    · exact reads_eval c!"set architecture auto" [] [] (by decide) (by decide) (by decide) (by simp) (by simp)
    · exact reads_eval c!"call (void*)dlopen(\"" dll c!"\", 2)" (by decide) hd (by decide) (by simp) (by simp)
    · exact reads_eval c!"sharedlibrary " dllName [] (by decide) hn (by decide) (by simp) (by simp)
    · exact reads_eval c!"call (int)DoAttach(0, \"" code c!"\", 0)" (by decide) hc (by decide) (by simp) (by simp)

/-! ### gdb and Python -/

/-- text that is the same within double quotes: no quotes, backslashes or ends of lines -/
def Clean (s : Str) : Prop := ∀ c ∈ s, c ≠ '\'' ∧ c ≠ '"' ∧ c ≠ '\\' ∧ c ≠ '\n' ∧ c ≠ '\r'

theorem quoted_cons {c : Char} (h : c ≠ '"' ∧ c ≠ '\\' ∧ c ≠ '\n' ∧ c ≠ '\r') (s : Str) :
    quoted (c :: s) = (quoted s).map fun r => (c :: r.1, r.2) := by
  obtain ⟨h1, h2, h3, h4⟩ := h
  rw [quoted.eq_def]
  split
  · rename_i h; cases h
  · rename_i h; cases h; exact absurd rfl h1
  · rename_i h; cases h; exact absurd rfl h2
  · rename_i h
    cases h
    rw [if_neg]
    rintro (h | h | h)
    · exact h3 h
    · exact h4 h
    · exact h2 h

/-- clean text is read as it is -/
theorem quoted_clean (a : Str) (h : ∀ c ∈ a, c ≠ '"' ∧ c ≠ '\\' ∧ c ≠ '\n' ∧ c ≠ '\r') (s : Str) :
    quoted (a ++ s) = (quoted s).map fun r => (a ++ r.1, r.2) := by
  induction a with
  | nil => rw [List.nil_append]; cases quoted s <;> rfl
  | cons c a ih =>
    rw [List.cons_append, quoted_cons (h c (List.mem_cons_self ..)), ih fun x hx => h x (List.mem_cons_of_mem _ hx)]
    cases quoted s <;> rfl

theorem quoted_escaped (s : Str) : quoted ('\\' :: '"' :: s) = (quoted s).map fun r => ('"' :: r.1, r.2) := by
  rw [quoted, if_pos (Or.inl rfl)]

theorem quoted_end (s : Str) : quoted ('"' :: s) = some ([], s) := by
  rw [quoted]

theorem clean_quoted {a : Str} (h : Clean a) (s : Str) : quoted (a ++ '"' :: s) = some (a, s) := by
  rw [quoted_clean a (fun c hc => ⟨(h c hc).2.1, (h c hc).2.2.1, (h c hc).2.2.2.1, (h c hc).2.2.2.2⟩), quoted_end]
  simp

theorem strip_append (p s : Str) : Spec.strip p (p ++ s) = some s := by
  unfold Spec.strip
  rw [if_pos ((Py.startsWith_iff _ _).mpr ⟨s, rfl⟩), List.drop_left]

/-- the text of the program that Python sees -/
def program (p1 p2 : Str) (s : Setup) : Str :=
  c!"import sys;" ++ (c!"sys.path.append(\"" ++ (p1 ++ (c!"\");" ++ (c!"sys.path.append(\"" ++ (p2 ++ (c!"\");" ++
  (c!"import attach_script;" ++ (c!"attach_script.attach(port=" ++ (Py.intStr s.port ++ (c!", host=\"" ++ (s.host ++
  (c!"\", protocol=\"" ++ (s.protocol ++ (c!"\", debug_mode=\"" ++ (s.mode ++ c!"\");")))))))))))))))

theorem intStr_clean (i : Int) : Clean (Py.intStr i) := by
  have hd : ∀ c, Py.isDigit c = true → c ≠ '\'' ∧ c ≠ '"' ∧ c ≠ '\\' ∧ c ≠ '\n' ∧ c ≠ '\r' := by
    intro c hc
    refine ⟨?_, ?_, ?_, ?_, ?_⟩ <;> (rintro rfl; revert hc; decide)
  intro c hc
  cases i with
  | ofNat n => exact hd c (Py.natStr_digits n c hc)
  | negSucc n =>
    rcases List.mem_cons.mp hc with rfl | hc
    · decide
    · exact hd c (Py.natStr_digits _ c hc)

/-- gdb undoes the escapes -/
theorem quoted_code {p1 p2 : Str} {s : Setup} (h1 : Clean p1) (h2 : Clean p2) (hh : Clean s.host) (hp : Clean s.protocol)
    (hm : Clean s.mode) (rest : Str) : quoted (pythonCode p1 p2 s ++ '"' :: rest) = some (program p1 p2 s, rest) := by
  have cl : ∀ {a : Str}, Clean a → ∀ s, quoted (a ++ s) = (quoted s).map fun r => (a ++ r.1, r.2) := by
    intro a h s
    exact quoted_clean a (fun c hc => ⟨(h c hc).2.1, (h c hc).2.2.1, (h c hc).2.2.2.1, (h c hc).2.2.2.2⟩) s
  have lit : ∀ a : Str, (∀ c ∈ a, c ≠ '"' ∧ c ≠ '\\' ∧ c ≠ '\n' ∧ c ≠ '\r') → ∀ s, quoted (a ++ s) = (quoted s).map fun r => (a ++ r.1, r.2) :=
    fun a h s => quoted_clean a h s
  have e : pythonCode p1 p2 s ++ '"' :: rest =
      c!"import sys;sys.path.append(" ++ ('\\' :: '"' :: (p1 ++ ('\\' :: '"' :: (c!");sys.path.append(" ++ ('\\' :: '"' :: (p2 ++
      ('\\' :: '"' :: (c!");import attach_script;attach_script.attach(port=" ++ (Py.intStr s.port ++ (c!", host=" ++ ('\\' :: '"' ::
      (s.host ++ ('\\' :: '"' :: (c!", protocol=" ++ ('\\' :: '"' :: (s.protocol ++ ('\\' :: '"' :: (c!", debug_mode=" ++ ('\\' :: '"' ::
      (s.mode ++ ('\\' :: '"' :: (c!");" ++ ('"' :: rest))))))))))))))))))))))) := by
    simp [pythonCode]
  rw [e, lit _ (by decide), quoted_escaped, cl h1, quoted_escaped, lit _ (by decide), quoted_escaped, cl h2, quoted_escaped,
    lit _ (by decide), cl (intStr_clean _), lit _ (by decide), quoted_escaped, cl hh, quoted_escaped, lit _ (by decide), quoted_escaped,
    cl hp, quoted_escaped, lit _ (by decide), quoted_escaped, cl hm, quoted_escaped, lit _ (by decide), quoted_end]
  simp [program]

theorem takeWhile_stop (p : Char → Bool) (a : Str) (c : Char) (s : Str) (h : ∀ x ∈ a, p x = true) (hc : p c = false) :
    (a ++ c :: s).takeWhile p = a ∧ (a ++ c :: s).dropWhile p = c :: s := by
  induction a with
  | nil => simp [hc]
  | cons x a ih =>
    have := ih fun y hy => h y (List.mem_cons_of_mem _ hy)
    simp [h x (List.mem_cons_self ..), this]

theorem stmt_append {p : Str} (h : Clean p) (s : Str) :
    stmt (c!"sys.path.append(\"" ++ (p ++ (c!"\");" ++ s))) = some (.appendPath p, s) := by
  have e : (c!"sys.path.append(\"" ++ (p ++ (c!"\");" ++ s))).drop 16 = '"' :: (p ++ '"' :: (c!");" ++ s)) := by rfl
  unfold stmt
  rw [if_neg (by intro h; rw [Py.startsWith_iff] at h; obtain ⟨t, ht⟩ := h; exact absurd (List.cons.inj ht).1 (by decide))]
  have hst : Py.startsWith (c!"sys.path.append(\"" ++ (p ++ (c!"\");" ++ s))) c!"sys.path.append(" = true :=
    (Py.startsWith_iff _ _).mpr ⟨'"' :: (p ++ (c!"\");" ++ s)), rfl⟩
  rw [if_pos hst, e]
  unfold pyString
  have hs : Spec.strip c!"\"" ('"' :: (p ++ '"' :: (c!");" ++ s))) = some (p ++ '"' :: (c!");" ++ s)) := strip_append c!"\"" _
  rw [hs, Option.bind_some, clean_quoted h, Option.bind_some]
  simp only [strip_append]
  rfl

theorem intStr_no_comma (i : Int) : ∀ c ∈ Py.intStr i, decide (c ≠ ',') = true := by
  have hd : ∀ c, Py.isDigit c = true → decide (c ≠ ',') = true := by
    intro c hc
    simp only [decide_eq_true_eq]
    rintro rfl
    revert hc
    decide
  intro c hc
  cases i with
  | ofNat n => exact hd c (Py.natStr_digits n c hc)
  | negSucc n =>
    rcases List.mem_cons.mp hc with rfl | hc
    · decide
    · exact hd c (Py.natStr_digits _ c hc)

theorem pyString_clean {a : Str} (h : Clean a) (s : Str) : pyString ('"' :: (a ++ '"' :: s)) = some (a, s) := by
  unfold pyString
  have hs : Spec.strip c!"\"" ('"' :: (a ++ '"' :: s)) = some (a ++ '"' :: s) := strip_append c!"\"" _
  rw [hs, Option.bind_some, clean_quoted h]

theorem stmt_attach {s : Setup} (hh : Clean s.host) (hp : Clean s.protocol) (hm : Clean s.mode) (rest : Str) :
    stmt (c!"attach_script.attach(port=" ++ (Py.intStr s.port ++ (c!", host=\"" ++ (s.host ++ (c!"\", protocol=\"" ++ (s.protocol ++
      (c!"\", debug_mode=\"" ++ (s.mode ++ (c!"\");" ++ rest))))))))) = some (.attach s.port s.host s.protocol s.mode, rest) := by
  unfold stmt
  rw [if_neg (by intro h; rw [Py.startsWith_iff] at h; obtain ⟨t, ht⟩ := h; exact absurd (List.cons.inj ht).1 (by decide))]
  rw [if_neg (by intro h; rw [Py.startsWith_iff] at h; obtain ⟨t, ht⟩ := h; exact absurd (List.cons.inj ht).1 (by decide))]
  rw [strip_append, Option.bind_some]
  have ht := takeWhile_stop (fun x => decide (x ≠ ',')) (Py.intStr s.port) ','
    (c!" host=\"" ++ (s.host ++ (c!"\", protocol=\"" ++ (s.protocol ++ (c!"\", debug_mode=\"" ++ (s.mode ++ (c!"\");" ++ rest)))))))
    (intStr_no_comma _) (by decide)
  have e : ∀ x : Str, c!", host=\"" ++ x = ',' :: (c!" host=\"" ++ x) := fun _ => rfl
  rw [e, ht.1, ht.2, Py.parseInt_intStr, Option.bind_some]
  have e1 : ∀ x : Str, ',' :: (c!" host=\"" ++ (s.host ++ (c!"\", protocol=\"" ++ x))) =
      c!", host=" ++ ('"' :: (s.host ++ '"' :: (c!", protocol=" ++ '"' :: x))) := fun _ => rfl
  rw [e1, strip_append, Option.bind_some, pyString_clean hh, Option.bind_some]
  dsimp only
  rw [strip_append, Option.bind_some]
  have e2 : ∀ x : Str, '"' :: (s.protocol ++ (c!"\", debug_mode=\"" ++ x)) = '"' :: (s.protocol ++ '"' :: (c!", debug_mode=" ++ '"' :: x)) :=
    fun _ => rfl
  rw [e2, pyString_clean hp, Option.bind_some]
  dsimp only
  rw [strip_append, Option.bind_some]
  have e3 : ∀ x : Str, '"' :: (s.mode ++ (c!"\");" ++ x)) = '"' :: (s.mode ++ '"' :: (c!");" ++ x)) := fun _ => rfl
  rw [e3, pyString_clean hm, Option.bind_some]
  dsimp only
  rw [strip_append]
  rfl

theorem program_reads {p1 p2 : Str} {s : Setup} (h1 : Clean p1) (h2 : Clean p2) (hh : Clean s.host) (hp : Clean s.protocol) (hm : Clean s.mode) :
    Program (program p1 p2 s) [.importModule c!"sys", .appendPath p1, .appendPath p2, .importModule c!"attach_script",
      .attach s.port s.host s.protocol s.mode] := by
  unfold program
  refine .cons (rest := (c!"sys.path.append(\"" ++ (p1 ++ (c!"\");" ++ (c!"sys.path.append(\"" ++ (p2 ++ (c!"\");" ++
    (c!"import attach_script;" ++ (c!"attach_script.attach(port=" ++ (Py.intStr s.port ++ (c!", host=\"" ++ (s.host ++
    (c!"\", protocol=\"" ++ (s.protocol ++ (c!"\", debug_mode=\"" ++ (s.mode ++ c!"\");"))))))))))))))))
    (by unfold stmt; rfl) ?_
  refine .cons (stmt_append h1 _) (.cons (stmt_append h2 _) ?_)
  refine .cons (rest := (c!"attach_script.attach(port=" ++ (Py.intStr s.port ++ (c!", host=\"" ++ (s.host ++
    (c!"\", protocol=\"" ++ (s.protocol ++ (c!"\", debug_mode=\"" ++ (s.mode ++ c!"\");")))))))))
    (by unfold stmt; rfl) ?_
  refine .cons (rest := []) ?_ .nil
  have := stmt_attach hh hp hm []
  rw [List.append_nil] at this
  exact this

theorem code_no_quote {p1 p2 : Str} {s : Setup} (h1 : Clean p1) (h2 : Clean p2) (hh : Clean s.host) (hp : Clean s.protocol)
    (hm : Clean s.mode) : '\'' ∉ pythonCode p1 p2 s := by
  have no : ∀ {a : Str}, Clean a → '\'' ∉ a := fun h hc => (h _ hc).1 rfl
  unfold pythonCode
  simp only [List.mem_append, not_or]
  refine ⟨⟨⟨⟨⟨⟨⟨⟨⟨⟨⟨⟨⟨⟨⟨⟨?_, ?_⟩, no h1⟩, ?_⟩, ?_⟩, no h2⟩, ?_⟩, ?_⟩, ?_⟩, no (intStr_clean _)⟩, ?_⟩, no hh⟩, ?_⟩, no hp⟩, ?_⟩, no hm⟩, ?_⟩
  all_goals decide

/-- C130. If the directories and the values of the options have no quotes, backslashes or ends of lines, the shell runs gdb for the process that
was given, and the last of its arguments makes the process run the program that adds the two directories to the path and attaches
with the values of the options. -/
theorem c130_attach (libs dll dllName p1 p2 : Str) (s : Setup) (hl : '\'' ∉ libs) (hd : '\'' ∉ dll) (hn : '\'' ∉ dllName) (h1 : Clean p1)
    (h2 : Clean p2) (hh : Clean s.host) (hp : Clean s.protocol) (hm : Clean s.mode) :
    ∃ text args code arg, attach libs dll dllName p1 p2 s = some text ∧ shell text = some (args ++ [arg]) ∧
      args.take 7 = [c!"gdb", c!"--nw", c!"--nh", c!"--nx", c!"--pid", Py.intStr s.pid, c!"--batch"] ∧
      gdbRuns arg = some code ∧
      Program code [.importModule c!"sys", .appendPath p1, .appendPath p2, .importModule c!"attach_script",
        .attach s.port s.host s.protocol s.mode] := by
  obtain ⟨text, ht, hs⟩ := c130_shell s.pid libs dll dllName (pythonCode p1 p2 s) hl hd hn (code_no_quote h1 h2 hh hp hm)
  refine ⟨text, ([c!"gdb", c!"--nw", c!"--nh", c!"--nx", c!"--pid", Py.intStr s.pid, c!"--batch"] ++ libWords libs) ++
    [c!"--eval-command=set scheduler-locking off",
     c!"--eval-command=set architecture auto",
     c!"--eval-command=call (void*)dlopen(\"" ++ dll ++ c!"\", 2)",
     c!"--eval-command=sharedlibrary " ++ dllName], program p1 p2 s,
     c!"--eval-command=call (int)DoAttach(0, \"" ++ pythonCode p1 p2 s ++ c!"\", 0)", ht, ?_, rfl, ?_, program_reads h1 h2 hh hp hm⟩
  · rw [hs]
    unfold gdbWords
    simp
  · unfold gdbRuns
    rw [List.append_assoc, strip_append, Option.bind_some]
    have := quoted_code h1 h2 hh hp hm c!", 0)"
    have e : pythonCode p1 p2 s ++ c!"\", 0)" = pythonCode p1 p2 s ++ '"' :: c!", 0)" := rfl
    rw [e, this]
    rfl

/-- C130. A directory or a value with a single quote: nothing is run. -/
theorem c130_quote (libs dll dllName p1 p2 : Str) (s : Setup)
    (h : '\'' ∈ p1 ∨ '\'' ∈ p2 ∨ '\'' ∈ s.host ∨ '\'' ∈ s.protocol ∨ '\'' ∈ s.mode) : attach libs dll dllName p1 p2 s = none := by
  unfold attach runLinux
  rw [if_pos]
  unfold pythonCode
  simp only [List.mem_append]
  rcases h with h | h | h | h | h <;> simp [h]

/-- C130. A host with a double quote makes the process run other code. -/
theorem c130_injection_witness :
    quoted (pythonCode c!"a" c!"b" { host := c!"x\\\");import os;(\\\"" } ++ c!"\"") =
      some (c!"import sys;sys.path.append(\"a\");sys.path.append(\"b\");import attach_script;attach_script.attach(port=5678, host=\"x\");import os;(\"\", protocol=\"\", debug_mode=\"\");", []) := by
  decide +kernel

/-! ### Examples -/

example : processCommandLine [c!"--pid", c!"12", c!"--host", c!"h", c!"--port", c!"1", c!"--port", c!"2"] =
    .ok { port := 2, pid := 12, host := c!"h" } := by decide +kernel

example : processCommandLine [c!"--pid", c!"12", c!"-v"] = .hang := by decide +kernel

example : Clean c!"/opt/my debugger/$x" := by unfold Clean; decide

example : (attach c!"libdl, libc" c!"/a/attach.so" c!"attach" c!"/a b" c!"/a b/c" { pid := 12 }).bind (fun t => (shell t).bind (fun w => w[7]?)) =
    some c!"--init-eval-command=set auto-solib-add off" := by decide +kernel

end AttachPid
