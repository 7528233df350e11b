import Verif.Bytecode.Sim

namespace Bytecode
variable {U E D : Type}

def IsBlock (L : Int) (blk : List (Ev U E)) : Prop :=
  ∃ k st e, blk = blockTraceStop k L st e ∨ blk = blockTraceGo k L st e

/-- The events of one step of the program in the instrumented program, after the
events `tr`. -/
inductive Shape (t : Track) (lines : List Int) (P Q : List Item) (tr : List (Ev U E)) :
    List (Ev U E) → Prop where
  | quiet : Shape t lines P Q tr []
  | plain (i st e) (ho : i.offset.isSome)
      (hl : ∀ L, i.lineno = some L → L ∈ lines →
        if t then ∃ a j st' e', tr = a ++ [.ran j st' e'] ∧ j.offset.isSome ∧ j.lineno = some L ∧
          ∃ p s, Q = p ++ .instr j :: .instr i :: s
        else ∃ done r i', P = done ++ .instr i :: r ∧ .instr i' ∈ done ∧ i'.lineno = some L) :
      Shape t lines P Q tr [.ran i st e]
  | before (i st e L blk) (ho : i.offset.isSome) (hl : i.lineno = some L) (hL : L ∈ lines)
      (hb : IsBlock L blk) : Shape t lines P Q tr (blk ++ [.ran i st e])
  | after (i st e L blk) (ho : i.offset.isSome) (hl : i.lineno = some L) (hL : L ∈ lines)
      (hn : i.name = "POP_TOP") (hp : ∃ p l s, Q = p ++ .label l :: .instr i :: s)
      (hb : IsBlock L blk) : Shape t lines P Q tr (.ran i st e :: blk)
  | pop (i e) (ho : i.offset.isSome) : Shape t lines P Q tr [.ran i [] e]

/-- The last event is the instruction right before this place. -/
def Link (t : Track) (c : Carry) (pre : List Item) (tr : List (Ev U E)) : Prop :=
  t = true → c.prevLabel = false → ∀ L, c.last = some L →
    ∃ pre₀ j st e tr₀, pre = pre₀ ++ [.instr j] ∧ tr = tr₀ ++ [.ran j st e] ∧
      j.offset.isSome ∧ j.lineno = some L

/-- The two programs are at the same place. -/
structure Bound (t : Track) (lines : List Int) (P Q : List Item) (f g : Frame U E D)
    (tr : List (Ev U E)) : Prop where
  stack : g.stack = f.stack
  env : g.env = f.env
  clean : Clean f.stack
  code : (f.code = none ∧ g.code = none) ∨
    ∃ r q c cur pre done, f.code = some r ∧ g.code = some q ∧ Pos t lines P Q r q c cur pre done ∧
      Link t c pre tr

theorem seen_block {L : Int} {blk : List (Ev U E)} (h : IsBlock L blk) : seen blk = [] := by
  obtain ⟨k, st, e, rfl | rfl⟩ := h <;> rfl

theorem seen_ran (i : Instr) (L : Option Int) (st : List (Val U)) (e : E) :
    seen [Ev.ran { i with lineno := L } st e] = seen [Ev.ran i st e] := rfl

/-- Landing after an instruction of the program. -/
theorem bound_land {t : Track} {lines P Q} {q r : List Item} {c cur pre done}
    {o : Out U E} (hO : Original P) (hstart : ∃ first, Q = out t lines {} first P)
    (hf : o.Fine) (hp : Pos t lines P Q r q c cur pre done) (tr : List (Ev U E)) (d d' : D)
    (hl : Link t c pre tr) :
    Bound t lines P Q (land P r d o) (land Q q d' o) tr := by
  cases o with
  | fall st e => exact ⟨rfl, rfl, hf, Or.inr ⟨_, _, _, _, _, _, rfl, rfl, hp, hl⟩⟩
  | leave st e => exact ⟨rfl, rfl, hf, Or.inl ⟨rfl, rfl⟩⟩
  | goto l st e =>
    obtain ⟨⟨n, rfl⟩, hc⟩ := hf
    obtain ⟨first, rfl⟩ := hstart
    obtain ⟨c', cur', pre', done', hpl, hp'⟩ := pos_after n hO (pos_start t lines first P)
    refine ⟨rfl, rfl, hc, Or.inr ⟨_, _, _, _, _, _, rfl, rfl, hp', ?_⟩⟩
    intro _ h; rw [hpl] at h; exact absurd h (by decide)

theorem macro_step {t : Track} {lines P Q} (w : World U E D) (hw : Unaware w) (hO : Original P)
    (hstart : ∃ first, Q = out t lines {} first P) {f g : Frame U E D} {tr : List (Ev U E)}
    (hb : Bound t lines P Q f g tr) {f' : Frame U E D} {evs : List (Ev U E)}
    (hs : step w P f = some (f', evs)) :
    ∃ n g' tr', 0 < n ∧ run w Q n g = (g', tr') ∧ Bound t lines P Q f' g' (tr ++ tr') ∧
      seen tr' = seen evs ∧ Shape t lines P Q tr tr' := by
  obtain ⟨fc, fs, fe, fd⟩ := f
  obtain ⟨gc, gs, ge, gd⟩ := g
  obtain ⟨h1, h2, h3, h4⟩ := hb
  simp only at h1 h2 h3 h4
  subst h1; subst h2
  rcases h4 with ⟨rfl, rfl⟩ | ⟨r, q, c, cur, pre, done, rfl, rfl, hp, hl⟩
  · simp [step] at hs
  · have hor : ∀ it ∈ r, it.Original := fun x hx => hO x (by rw [hp.hP]; simp [hx])
    cases r with
    | nil => simp [step] at hs
    | cons it r =>
      cases it with
      | label l =>
        obtain ⟨q', rfl, hp'⟩ := pos_label hp (hor _ (by simp))
        simp only [step, Option.some.injEq, Prod.mk.injEq] at hs
        obtain ⟨rfl, rfl⟩ := hs
        refine ⟨1, _, _, by omega, run_one _ _ _ _ _ rfl, ?_, rfl, .quiet⟩
        refine ⟨rfl, rfl, h3, Or.inr ⟨_, _, _, _, _, _, rfl, rfl, hp', ?_⟩⟩
        intro _ h; exact absurd h (by simp)
      | instr i =>
        have hi := hor _ (List.mem_cons_self)
        obtain ⟨hfine, hex, hpop⟩ := exec_own w hw i hi gs ge h3
        have hio : i.offset.isSome := hi.1
        simp only [step, Option.some.injEq, Prod.mk.injEq, hex] at hs
        obtain ⟨rfl, rfl⟩ := hs
        obtain ⟨L, hL, hc⟩ := pos_instr hp hi
        rcases hc with ⟨q', c', rfl, hcont, hpl, hlast, hp'⟩ | ⟨q', c', rfl, hlin, hpl, hlast, hp'⟩ |
          ⟨q', c', rfl, hlin, hname, hplc, hpl, hp'⟩
        · refine ⟨1, _, _, by omega, run_one _ _ _ _ _ (by simp only [step, hex]; rfl), ?_, ?_, ?_⟩
          · refine bound_land hO hstart hfine hp' _ _ _ ?_
            intro ht _ L' hL'
            rw [hlast, if_pos ht] at hL'
            exact ⟨pre, _, gs, ge, tr, rfl, rfl, hio, hL'⟩
          · rfl
          · refine .plain _ _ _ hio ?_
            intro L' hL' hmem
            cases hL'
            have hcont := hcont hmem
            cases t
            · simp only [Cont, Bool.false_eq_true, if_false] at hcont ⊢
              obtain ⟨i', hi', hl'⟩ := hp.added _ hcont
              have : { i with lineno := some L } = i := by
                have := hL rfl; cases i; simp_all
              rw [this]
              exact ⟨done, r, i', hp.hP, hi', hl'⟩
            · simp only [Cont, if_true] at hcont ⊢
              obtain ⟨pre₀, j, st, e, tr₀, hpre, htr, hjo, hjl⟩ := hl rfl hcont.2 L hcont.1
              refine ⟨tr₀, j, st, e, htr, hjo, hjl, pre₀, q', ?_⟩
              rw [hp.hQ, hpre]; simp
        · obtain ⟨n, d', btr, hn, hrun, hbl⟩ := block_run w Q pre
            (.instr { i with lineno := some L } :: q') c.fresh L hp.hQ
            (fun j hj => Nat.ne_of_lt (hp.fresh j hj)) gs ge gd
          have hblk : IsBlock L btr := ⟨_, _, _, hbl⟩
          refine ⟨n + 1, land Q q' d' (ownOut w i.name i.arg gs ge),
            btr ++ [.ran { i with lineno := some L } gs ge], by omega, ?_, ?_, ?_, ?_⟩
          · rw [run_add, hrun]
            rw [run_one w Q { code := some (.instr { i with lineno := some L } :: q'), stack := gs, env := ge, dbg := d' } _ _ (by simp only [step, hex]; rfl)]
          · refine bound_land hO hstart hfine hp' _ _ _ ?_
            intro ht _ L' hL'
            rw [hlast, if_pos ht] at hL'
            exact ⟨pre ++ instructionsToAdd c.fresh L, { i with lineno := some L }, gs, ge, tr ++ btr, by simp, by simp, hio, hL'⟩
          · rw [seen_append, seen_block hblk]; rfl
          · exact .before _ _ _ _ _ hio rfl hlin hblk
        · have hpos : ∃ p l s, Q = p ++ .label l :: .instr { i with lineno := some L } :: s := by
            rcases hp.lab hplc with h | ⟨p, l, h⟩
            · exact absurd h (by simp)
            · exact ⟨p, l, _, by rw [hp.hQ, h]; simp; rfl⟩
          cases ho : ownOut w i.name i.arg gs ge with
          | fall st' e' =>
            obtain ⟨n, d', btr, hn, hrun, hbl⟩ := block_run w Q (pre ++ [.instr { i with lineno := some L }])
              q' c.fresh L (by rw [hp.hQ]; simp)
              (fun j hj => Nat.ne_of_lt (hp.fresh j (by simpa using hj))) st' e' gd
            have hblk : IsBlock L btr := ⟨_, _, _, hbl⟩
            refine ⟨1 + n, land Q q' d' (.fall st' e'),
              .ran { i with lineno := some L } gs ge :: btr, by omega, ?_, ?_, ?_, ?_⟩
            · rw [run_add, run_one w Q _ { code := some (instructionsToAdd c.fresh L ++ q'), stack := st', env := e', dbg := gd } [.ran { i with lineno := some L } gs ge] (by simp only [step, hex, ho]; rfl)]
              rw [hrun]; rfl
            · rw [ho] at hfine
              refine bound_land hO hstart hfine hp' _ _ _ ?_
              intro _ h; rw [hpl] at h; exact absurd h (by decide)
            · rw [seen_cons, seen_block hblk]; simp [seen_cons, Ev.seen]
            · exact .after _ _ _ _ _ hio rfl hlin hname hpos hblk
          | goto l st' e' =>
            have hgs : gs = [] := by
              rcases Classical.em (gs = []) with h | h
              · exact h
              · obtain ⟨_, _, h'⟩ := hpop hname h; rw [ho] at h'; cases h'
            subst hgs
            rw [ho] at hfine
            refine ⟨1, land Q q' gd (.goto l st' e'), _, by omega,
              run_one _ _ _ _ [.ran { i with lineno := some L } [] ge] (by simp only [step, hex, ho]; rfl), ?_, rfl, .pop _ _ hio⟩
            refine bound_land hO hstart hfine hp' _ _ _ ?_
            intro _ h; rw [hpl] at h; exact absurd h (by decide)
          | leave st' e' =>
            have hgs : gs = [] := by
              rcases Classical.em (gs = []) with h | h
              · exact h
              · obtain ⟨_, _, h'⟩ := hpop hname h; rw [ho] at h'; cases h'
            subst hgs
            rw [ho] at hfine
            refine ⟨1, land Q q' gd (.leave st' e'), _, by omega,
              run_one _ _ _ _ [.ran { i with lineno := some L } [] ge] (by simp only [step, hex, ho]; rfl), ?_, rfl, .pop _ _ hio⟩
            refine bound_land hO hstart hfine hp' _ _ _ ?_
            intro _ h; rw [hpl] at h; exact absurd h (by decide)

/-! ### Whole runs -/

/-- A property of traces which every step of the program keeps. -/
def Kept (t : Track) (lines : List Int) (P Q : List Item) (G : List (Ev U E) → Prop) : Prop :=
  ∀ tr tr', G tr → Shape t lines P Q tr tr' → G (tr ++ tr')

theorem follow {t : Track} {lines P Q} (w : World U E D) (hw : Unaware w) (hO : Original P)
    (hstart : ∃ first, Q = out t lines {} first P) (n : Nat) :
    ∀ {f g : Frame U E D} {tr : List (Ev U E)}, Bound t lines P Q f g tr →
    ∃ m g' tr', run w Q m g = (g', tr') ∧ Bound t lines P Q (run w P n f).1 g' (tr ++ tr') ∧
      seen tr' = seen (run w P n f).2 := by
  induction n with
  | zero => intro f g tr h; exact ⟨0, g, [], rfl, by simpa [run] using h, rfl⟩
  | succ n ih =>
    intro f g tr h
    cases hs : step w P f with
    | none => exact ⟨0, g, [], rfl, by simpa [run, hs] using h, by simp [run, hs]⟩
    | some x =>
      obtain ⟨f', evs⟩ := x
      obtain ⟨a, g₁, tr₁, _, hr, hb, hse, _⟩ := macro_step w hw hO hstart h hs
      obtain ⟨m, g', tr', hr', hb', hse'⟩ := ih hb
      refine ⟨a + m, g', tr₁ ++ tr', by rw [run_add, hr, hr'], ?_, ?_⟩
      · simpa [run, hs] using hb'
      · simp [run, hs, hse, hse']

/-- Every run of the instrumented program goes on to a place of the program. -/
theorem cover {t : Track} {lines P Q} (w : World U E D) (hw : Unaware w) (hO : Original P)
    (hstart : ∃ first, Q = out t lines {} first P) (G : List (Ev U E) → Prop)
    (hG : Kept t lines P Q G) (m : Nat) :
    ∀ {f g : Frame U E D} {tr : List (Ev U E)}, Bound t lines P Q f g tr → G tr →
    ∃ n k g' tr', run w Q (m + k) g = (g', tr') ∧ Bound t lines P Q (run w P n f).1 g' (tr ++ tr') ∧
      seen tr' = seen (run w P n f).2 ∧ G (tr ++ tr') := by
  induction m using Nat.strongRecOn with
  | ind m ih =>
    intro f g tr h hg
    rcases Nat.eq_zero_or_pos m with rfl | hm
    · exact ⟨0, 0, g, [], rfl, by simpa [run] using h, rfl, by simpa using hg⟩
    · cases hs : step w P f with
      | none =>
        have hgs : step w Q g = none := by
          rcases h.code with ⟨_, h2⟩ | ⟨r, q, c, cur, pre, done, h1, h2, hp, _⟩
          · simp [step, h2]
          · cases r with
            | nil =>
              have hq := hp.hq
              simp only [out, insertLoop, withLines] at hq
              simp [step, h2, hq]
            | cons it r => cases it <;> simp [step, h1] at hs
        exact ⟨0, 0, g, [], run_halted _ _ _ hgs _, by simpa [run] using h, rfl, by simpa using hg⟩
      | some x =>
        obtain ⟨f', evs⟩ := x
        obtain ⟨a, g₁, tr₁, ha, hr, hb, hse, hsh⟩ := macro_step w hw hO hstart h hs
        have hg₁ := hG _ _ hg hsh
        by_cases hle : m ≤ a
        · refine ⟨1, a - m, g₁, tr₁, by rw [Nat.add_sub_cancel' hle]; exact hr, ?_, ?_, hg₁⟩
          · simpa [run, hs] using hb
          · simpa [run, hs] using hse
        · obtain ⟨n, k, g', tr', hr', hb', hse', hg'⟩ := ih (m - a) (by omega) hb hg₁
          refine ⟨n + 1, k, g', tr₁ ++ tr', ?_, ?_, ?_, ?_⟩
          · rw [show m + k = a + (m - a + k) by omega, run_add, hr, hr']
          · simpa [run, hs] using hb'
          · simp [run, hs, hse, hse']
          · simpa using hg'

theorem bound_start (t : Track) (lines : List Int) (P : List Item) (first : Int)
    (st : List (Val U)) (e : E) (d d' : D) (hc : Clean st) :
    Bound t lines P (out t lines {} first P) (start P st e d) (start (out t lines {} first P) st e d') [] :=
  ⟨rfl, rfl, hc, Or.inr ⟨_, _, _, _, _, _, rfl, rfl, pos_start t lines first P,
    by intro _ _ L h; simp at h⟩⟩

theorem seen_step (w : World U E D) (hw : Unaware w) (P : List Item) (hO : Original P) (f f' : Frame U E D)
    (evs : List (Ev U E)) (h : step w P f = some (f', evs)) (hc : Clean f.stack)
    (hcode : ∀ r, f.code = some r → ∀ it ∈ r, it ∈ P) : (seen evs).length ≤ 1 := by
  obtain ⟨fc, fs, fe, fd⟩ := f
  cases fc with
  | none => simp [step] at h
  | some r =>
    cases r with
    | nil => simp [step] at h
    | cons it r =>
      cases it with
      | label l => simp [step] at h; obtain ⟨_, rfl⟩ := h; simp
      | instr i =>
        obtain ⟨_, hex, _⟩ := exec_own w hw i (hO _ (hcode _ rfl _ (by simp))) fs fe hc
        simp only [step, hex, Option.some.injEq, Prod.mk.injEq] at h
        obtain ⟨_, rfl⟩ := h
        simp only [seen_cons, seen_nil, List.append_nil]
        split <;> simp

/-- Each step of the program is seen as at most one instruction. -/
theorem prefix_run {t : Track} {lines P Q} (w : World U E D) (hw : Unaware w) (hO : Original P)
    (hstart : ∃ first, Q = out t lines {} first P) (n : Nat) :
    ∀ {f g : Frame U E D} {tr : List (Ev U E)} (v), Bound t lines P Q f g tr →
      v <+: seen (run w P n f).2 → ∃ n', v = seen (run w P n' f).2 := by
  induction n with
  | zero => intro f g tr v _ h; simp [run] at h; exact ⟨0, by simp [run, h]⟩
  | succ n ih =>
    intro f g tr v hb h
    cases hs : step w P f with
    | none => simp [run, hs] at h; exact ⟨0, by simp [run, h]⟩
    | some x =>
      obtain ⟨f', evs⟩ := x
      obtain ⟨a, g₁, tr₁, _, _, hb', _, _⟩ := macro_step w hw hO hstart hb hs
      have hlen : (seen evs).length ≤ 1 := by
        refine seen_step w hw P hO f f' evs hs hb.clean ?_
        intro r hr it hit
        rcases hb.code with ⟨h1, _⟩ | ⟨r', q, c, cur, pre, done, h1, _, hp, _⟩
        · rw [h1] at hr; cases hr
        · rw [h1] at hr; cases hr; rw [hp.hP]; simp [hit]
      simp only [run, hs, seen_append] at h
      match hev : seen evs, hlen with
      | [], _ =>
        rw [hev, List.nil_append] at h
        obtain ⟨n', hn'⟩ := ih v hb' h
        exact ⟨n' + 1, by simp [run, hs, hev, hn']⟩
      | [x], _ =>
        rw [hev] at h
        cases v with
        | nil => exact ⟨0, rfl⟩
        | cons y v =>
          rw [List.singleton_append, List.cons_prefix_cons] at h
          obtain ⟨n', hn'⟩ := ih v hb' h.2
          exact ⟨n' + 1, by simp [run, hs, hev, h.1, hn']⟩

theorem insertBreaks_eq {t : Track} {lines : List Int} {first : Int} {has : Bool} {P Q : List Item}
    (h : insertBreaks t lines first has P = some Q) : Q = out t lines {} first P := by
  unfold insertBreaks at h
  split at h
  · cases h
  · split at h
    · cases h
    · split at h
      · cases h
      · cases h; rfl

end Bytecode
