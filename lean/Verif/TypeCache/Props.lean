import Verif.TypeCache.Model
/-!
C100: what is shown for a value does not depend on the values shown before.
-/

namespace TypeCache

/-- The type by which a value is looked up: its `__class__`, or what `type` gives when that cannot be used. -/
def World.key (w : World) (o : Obj) : Ty :=
  match w.cls o with
  | some t => if (w.name t).isSome && w.hashable t then t else w.real o
  | none => w.real o

/-- Values looked up by the same type are instances of the same types. -/
def Uniform (w : World) : Prop := ∀ o o', w.key o = w.key o' → ∀ e ∈ w.table, w.isinst o e.1 = w.isinst o' e.1

/-- No provider of texts fails for a value of the type. -/
def NeverFails (w : World) (t : Ty) : Prop :=
  ∀ p ∈ w.strs, ∀ o ctx, w.key o = t → w.strClaims p t = some true → w.strOf p o ctx ≠ none

/-! ### What the caches hold -/

/-- Every resolver kept is what would be found for any value of that type. -/
def TypesOk (w : World) (h : Handler) : Prop :=
  ∀ t r, Py.Dict.get h.types t = some r → ∀ o, w.key o = t → r = find w o t

/-- What a provider kept for a type is: the first that claims it. -/
def firstText (w : World) (t : Ty) : Option (Option Prov) := firstClaim (fun p => w.strClaims p t) w.strs

def TextsOk (w : World) (h : Handler) : Prop :=
  ∀ t, NeverFails w t → (∃ o, w.key o = t) →
    match Py.Dict.get h.texts t with
    | none => True
    | some .noProvider => firstText w t = some none
    | some (.provider p) => firstText w t = some (some p)

/-- Every provider kept claims the type. -/
def Claimed (w : World) (h : Handler) : Prop :=
  ∀ t p, Py.Dict.get h.texts t = some (.provider p) → p ∈ w.strs ∧ w.strClaims p t = some true

theorem find_congr {w : World} (hu : Uniform w) {o o' : Obj} (h : w.key o = w.key o') (t : Ty) :
    find w o t = find w o' t := by
  unfold find
  split
  · rfl
  · rfl
  · have : w.table.find? (fun e => w.isinst o e.1) = w.table.find? (fun e => w.isinst o' e.1) := by
      have hall := hu o o' h
      generalize w.table = l at hall
      induction l with
      | nil => rfl
      | cons e l ih =>
        rw [List.find?_cons, List.find?_cons, hall e (List.mem_cons_self ..),
          ih (fun x hx => hall x (List.mem_cons_of_mem _ hx))]
    rw [this]

theorem getTypeFor_ok {w : World} (hu : Uniform w) {h : Handler} (hok : TypesOk w h) {o : Obj} {t : Ty}
    (ht : w.key o = t) {r : Option Resolver} {h' : Handler} (hr : getTypeFor w h o t = some (r, h')) :
    r = find w o t ∧ TypesOk w h' ∧ h'.texts = h.texts := by
  unfold getTypeFor at hr
  split at hr
  · cases hr
  · split at hr
    · rename_i r' hg
      injection hr with hr
      injection hr with h1 h2
      subst h1 h2
      exact ⟨hok t _ hg o ht, hok, rfl⟩
    · injection hr with hr
      injection hr with h1 h2
      subst h1 h2
      refine ⟨rfl, ?_, rfl⟩
      intro t' r' hg o' ho'
      rw [Py.Dict.get_set] at hg
      split at hg
      · rename_i heq
        subst heq
        injection hg with hg
        subst hg
        exact find_congr hu (by rw [ht, ho']) _
      · exact hok t' r' hg o' ho'

/-- The answer for a value, found without any cache. -/
def answer (w : World) (o : Obj) : Answer :=
  match w.name (w.key o) with
  | none => .unable
  | some n => .type (w.key o) n (if w.hashable (w.key o) then find w o (w.key o) else some .default)

theorem getType_ok {w : World} (hu : Uniform w) {h : Handler} (hok : TypesOk w h) (o : Obj) :
    (getType w h o).1 = answer w o ∧ TypesOk w (getType w h o).2 ∧ (getType w h o).2.texts = h.texts := by
  have hreal : w.key o = w.real o →
      (getTypeReal w h o).1 = answer w o ∧ TypesOk w (getTypeReal w h o).2 ∧ (getTypeReal w h o).2.texts = h.texts := by
    intro hk
    unfold getTypeReal answer
    rw [hk]
    cases hn : w.name (w.real o) with
    | none => exact ⟨rfl, hok, rfl⟩
    | some n =>
      dsimp only
      cases hg : getTypeFor w h o (w.real o) with
      | none =>
        have : w.hashable (w.real o) = false := by
          unfold getTypeFor at hg
          split at hg
          · assumption
          · split at hg <;> cases hg
        simp [this, hok]
      | some x =>
        obtain ⟨r, h'⟩ := x
        obtain ⟨h1, h2, h3⟩ := getTypeFor_ok hu hok hk hg
        have hh : w.hashable (w.real o) = true := by
          unfold getTypeFor at hg
          split at hg
          · cases hg
          · rename_i hh; simpa using hh
        simp [hh, h1, h2, h3]
  unfold getType
  unfold getTypeClass
  cases hc : w.cls o with
  | none => exact hreal (by simp [World.key, hc])
  | some t =>
    dsimp only
    cases hn : w.name t with
    | none => exact hreal (by simp [World.key, hc, hn])
    | some n =>
      dsimp only
      cases hg : getTypeFor w h o t with
      | none =>
        have : w.hashable t = false := by
          unfold getTypeFor at hg
          split at hg
          · assumption
          · split at hg <;> cases hg
        exact hreal (by simp [World.key, hc, this])
      | some x =>
        obtain ⟨r, h'⟩ := x
        have hh : w.hashable t = true := by
          unfold getTypeFor at hg
          split at hg
          · cases hg
          · rename_i hh; simpa using hh
        have hk : w.key o = t := by simp [World.key, hc, hn, hh]
        obtain ⟨h1, h2, h3⟩ := getTypeFor_ok hu hok hk hg
        refine ⟨?_, h2, h3⟩
        simp [answer, hk, hn, hh, h1]

/-- Without a cache: the text of the first provider that claims the type. -/
def freshText (w : World) (o : Obj) (ctx : Option Str) : Text :=
  if w.hashable (w.key o) = false then .raises
  else match firstText w (w.key o) with
    | none => .raises
    | some none => .is none
    | some (some p) => ofStr (w.strOf p o ctx)

theorem firstClaim_mem {claims : Prov → Option Bool} {l : List Prov} {p : Prov}
    (h : firstClaim claims l = some (some p)) : p ∈ l ∧ claims p = some true := by
  induction l with
  | nil => cases h
  | cons q l ih =>
    simp only [firstClaim] at h
    split at h
    · cases h
    · rename_i hq; injection h with h; injection h with h; subst h; exact ⟨List.mem_cons_self .., hq⟩
    · exact ⟨List.mem_cons_of_mem _ (ih h).1, (ih h).2⟩

theorem textLoop_fresh {w : World} {o : Obj} {t : Ty} {ctx : Option Str} {h : Handler} {l : List Prov}
    (hl : ∀ p ∈ l, w.strClaims p t = some true → w.strOf p o ctx ≠ none) :
    textLoop w o t ctx h l =
      match firstClaim (fun p => w.strClaims p t) l with
      | none => (.raises, h)
      | some none => (.is none, { h with texts := Py.Dict.set h.texts t .noProvider })
      | some (some p) => (ofStr (w.strOf p o ctx), { h with texts := Py.Dict.set h.texts t (.provider p) }) := by
  induction l with
  | nil => rfl
  | cons p l ih =>
    unfold textLoop firstClaim
    cases hp : w.strClaims p t with
    | none => rfl
    | some b =>
      cases b with
      | false => exact ih (fun q hq => hl q (List.mem_cons_of_mem _ hq))
      | true =>
        dsimp only
        cases hs : w.strOf p o ctx with
        | none => exact absurd hs (hl p (List.mem_cons_self ..) hp)
        | some s => rfl

/-- The loop changes nothing for other types. -/
theorem textLoop_other {w : World} {o : Obj} {t t' : Ty} {ctx : Option Str} {l : List Prov} (ht : t' ≠ t) :
    ∀ h : Handler, Py.Dict.get (textLoop w o t ctx h l).2.texts t' = Py.Dict.get h.texts t' := by
  induction l with
  | nil => intro h; simp [textLoop, Py.Dict.get_set, ht]
  | cons p l ih =>
    intro h
    unfold textLoop
    split
    · rfl
    · exact ih h
    · split
      · simp [Py.Dict.get_set, ht]
      · rw [ih]; simp [Py.Dict.get_set, ht]

theorem textLoop_types {w : World} {o : Obj} {t : Ty} {ctx : Option Str} {l : List Prov} :
    ∀ h : Handler, (textLoop w o t ctx h l).2.types = h.types := by
  induction l with
  | nil => intro h; rfl
  | cons p l ih =>
    intro h
    unfold textLoop
    split
    · rfl
    · exact ih h
    · split
      · rfl
      · rw [ih]

theorem textLoop_claimed {w : World} {o : Obj} {t : Ty} {ctx : Option Str} {l : List Prov}
    (hl : ∀ p ∈ l, p ∈ w.strs) : ∀ h : Handler, Claimed w h → Claimed w (textLoop w o t ctx h l).2 := by
  have hset : ∀ {h : Handler} {p : Prov}, Claimed w h → p ∈ w.strs → w.strClaims p t = some true →
      Claimed w { h with texts := Py.Dict.set h.texts t (.provider p) } := by
    intro h p hc hp hcl t' p' hg
    rw [Py.Dict.get_set] at hg
    split at hg
    · rename_i heq; subst heq; injection hg with hg; injection hg with hg; subst hg; exact ⟨hp, hcl⟩
    · exact hc t' p' hg
  induction l with
  | nil =>
    intro h hc t' p' hg
    simp only [textLoop] at hg
    rw [Py.Dict.get_set] at hg
    split at hg
    · cases hg
    · exact hc t' p' hg
  | cons p l ih =>
    intro h hc
    have ih := ih (fun q hq => hl q (List.mem_cons_of_mem _ hq))
    unfold textLoop
    split
    · exact hc
    · exact ih h hc
    · rename_i hp
      have := hset hc (hl p (List.mem_cons_self ..)) hp
      split
      · exact this
      · exact ih _ this

theorem strFromProviders_ok {w : World} {h : Handler} (hok : TextsOk w h) (hc : Claimed w h) (o : Obj) (ctx : Option Str) :
    (NeverFails w (w.key o) → (strFromProviders w h o (w.key o) ctx).1 = freshText w o ctx) ∧
    TextsOk w (strFromProviders w h o (w.key o) ctx).2 ∧ Claimed w (strFromProviders w h o (w.key o) ctx).2 ∧
    (strFromProviders w h o (w.key o) ctx).2.types = h.types := by
  unfold strFromProviders freshText
  split
  · exact ⟨fun _ => rfl, hok, hc, rfl⟩
  · split
    · rename_i hg
      refine ⟨fun hn => ?_, hok, hc, rfl⟩
      have := hok _ hn ⟨o, rfl⟩
      rw [hg] at this
      simp only [this]
    · rename_i p hg
      refine ⟨fun hn => ?_, hok, hc, rfl⟩
      have := hok _ hn ⟨o, rfl⟩
      rw [hg] at this
      simp only [this]
    · rename_i hg
      refine ⟨fun hn => ?_, ?_, textLoop_claimed (fun _ hp => hp) h hc, textLoop_types h⟩
      · rw [textLoop_fresh (fun p hp hcl => hn p hp o ctx rfl hcl)]
        unfold firstText
        cases firstClaim (fun p => w.strClaims p (w.key o)) w.strs with
        | none => rfl
        | some x => cases x <;> rfl
      · intro t hn hex
        by_cases ht : t = w.key o
        · subst ht
          rw [textLoop_fresh (fun p hp hcl => hn p hp o ctx rfl hcl)]
          have hft : firstText w (w.key o) = firstClaim (fun p => w.strClaims p (w.key o)) w.strs := rfl
          cases hf : firstClaim (fun p => w.strClaims p (w.key o)) w.strs with
          | none =>
            rw [hf] at hft
            simp only [hg]
          | some x =>
            rw [hf] at hft
            cases x with
            | none => simp only [Py.Dict.get_set, if_true]; exact hft
            | some p => simp only [Py.Dict.get_set, if_true]; exact hft
        · rw [textLoop_other ht]
          exact hok t hn hex

theorem answer_type {w : World} {o : Obj} {t : Ty} {n : Str} {r : Option Resolver} (h : answer w o = .type t n r) :
    t = w.key o := by
  unfold answer at h
  split at h
  · cases h
  · injection h with h1; exact h1.symm

theorem details_ok {w : World} (hu : Uniform w) {h : Handler} (h1 : TypesOk w h) (h2 : TextsOk w h) (h3 : Claimed w h)
    (o : Obj) (ctx : Option Str) :
    (details w h o ctx).1.1 = answer w o ∧
    (NeverFails w (w.key o) → (details w h o ctx).1.2 =
      match answer w o with
      | .unable => valueOf w o (.is none)
      | .type _ _ _ => valueOf w o (freshText w o ctx)) ∧
    TypesOk w (details w h o ctx).2 ∧ TextsOk w (details w h o ctx).2 ∧ Claimed w (details w h o ctx).2 := by
  obtain ⟨ha, hty, htx⟩ := getType_ok hu h1 o
  have h2' : TextsOk w (getType w h o).2 := by intro t; rw [htx]; exact h2 t
  have h3' : Claimed w (getType w h o).2 := by intro t; rw [htx]; exact h3 t
  unfold details
  rw [ha]
  cases hans : answer w o with
  | unable => exact ⟨rfl, fun _ => rfl, hty, h2', h3'⟩
  | type t n r =>
    have ht := answer_type hans
    subst ht
    obtain ⟨a1, a2, a3, a4⟩ := strFromProviders_ok h2' h3' o ctx
    refine ⟨rfl, fun hn => ?_, ?_, a2, a3⟩
    · show valueOf w o _ = valueOf w o _
      rw [a1 hn]
    · intro t'
      show ∀ r, Py.Dict.get (strFromProviders w (getType w h o).2 o (w.key o) ctx).2.types t' = _ → _
      rw [a4]
      exact hty t'

theorem new_ok (w : World) : TypesOk w .new ∧ TextsOk w .new ∧ Claimed w .new := by
  refine ⟨?_, ?_, ?_⟩
  · intro t r h; cases h
  · intro t _ _; trivial
  · intro t p h; cases h

theorem after_ok {w : World} (hu : Uniform w) (l : List (Obj × Option Str)) : ∀ h : Handler,
    TypesOk w h ∧ TextsOk w h ∧ Claimed w h → TypesOk w (after w h l) ∧ TextsOk w (after w h l) ∧ Claimed w (after w h l) := by
  induction l with
  | nil => intro h hh; exact hh
  | cons x l ih =>
    intro h hh
    exact ih _ (details_ok hu hh.1 hh.2.1 hh.2.2 x.1 x.2).2.2

/-! ### C100 -/

/-- **C100**, the resolver: whichever values were shown before, in whichever contexts, the type, its name and
the resolver that expands a value are those a handler that has shown nothing gives. -/
theorem c100_resolver {w : World} (hu : Uniform w) (l : List (Obj × Option Str)) (o : Obj) (ctx : Option Str) :
    (details w (after w .new l) o ctx).1.1 = (details w .new o ctx).1.1 := by
  obtain ⟨a1, a2, a3⟩ := after_ok hu l _ (new_ok w)
  obtain ⟨b1, b2, b3⟩ := new_ok w
  rw [(details_ok hu a1 a2 a3 o ctx).1, (details_ok hu b1 b2 b3 o ctx).1]

/-- **C100**, the text: so is the text shown, when the providers of texts never fail for values of this type. -/
theorem c100_text {w : World} (hu : Uniform w) (l : List (Obj × Option Str)) (o : Obj) (ctx : Option Str)
    (hn : NeverFails w (w.key o)) :
    (details w (after w .new l) o ctx).1.2 = (details w .new o ctx).1.2 := by
  obtain ⟨a1, a2, a3⟩ := after_ok hu l _ (new_ok w)
  obtain ⟨b1, b2, b3⟩ := new_ok w
  rw [(details_ok hu a1 a2 a3 o ctx).2.1 hn, (details_ok hu b1 b2 b3 o ctx).2.1 hn]

theorem textLoop_own {w : World} {o : Obj} {t : Ty} {ctx : Option Str} {l : List Prov} :
    ∀ h : Handler, (textLoop w o t ctx h l).1 = .raises ∨ (textLoop w o t ctx h l).1 = .is none ∨
      ∃ p ∈ l, w.strClaims p t = some true ∧ ∃ s, w.strOf p o ctx = some s ∧ (textLoop w o t ctx h l).1 = .is s := by
  induction l with
  | nil => intro h; exact .inr (.inl rfl)
  | cons p l ih =>
    intro h
    unfold textLoop
    cases hp : w.strClaims p t with
    | none => exact .inl rfl
    | some b =>
      cases b with
      | false =>
        rcases ih h with h | h | ⟨q, hq, h⟩
        · exact .inl h
        · exact .inr (.inl h)
        · exact .inr (.inr ⟨q, List.mem_cons_of_mem _ hq, h⟩)
      | true =>
        dsimp only
        cases hs : w.strOf p o ctx with
        | none =>
          rcases ih { h with texts := Py.Dict.set h.texts t (.provider p) } with h | h | ⟨q, hq, h⟩
          · exact .inl h
          · exact .inr (.inl h)
          · exact .inr (.inr ⟨q, List.mem_cons_of_mem _ hq, h⟩)
        | some s => exact .inr (.inr ⟨p, List.mem_cons_self .., hp, s, hs, rfl⟩)

/-- **C100**, in every case, also where providers fail: the text shown is of the value itself; it is what a provider
that claims its type says of it in this context, or the text made without providers, or its `repr`. -/
theorem c100_own_text {w : World} (hu : Uniform w) (l : List (Obj × Option Str)) (o : Obj) (ctx : Option Str) :
    (∃ p ∈ w.strs, w.strClaims p (w.key o) = some true ∧
      w.strOf p o ctx = some (some (details w (after w .new l) o ctx).1.2)) ∨
    w.plain o = some (details w (after w .new l) o ctx).1.2 ∨
    (details w (after w .new l) o ctx).1.2 = w.repr o := by
  obtain ⟨a1, a2, a3⟩ := after_ok hu l _ (new_ok w)
  generalize after w .new l = h at *
  obtain ⟨ha, hty, htx⟩ := getType_ok hu a1 o
  have a3' : Claimed w (getType w h o).2 := by intro t; rw [htx]; exact a3 t
  have hplain : ∀ s, s = valueOf w o (.is none) → (w.plain o = some s ∨ s = w.repr o) := by
    rintro s rfl
    simp only [valueOf]
    cases w.plain o with
    | none => exact .inr rfl
    | some s => exact .inl rfl
  unfold details
  rw [ha]
  cases hans : answer w o with
  | unable => exact .inr (hplain _ rfl)
  | type t n r =>
    have ht := answer_type hans
    subst ht
    show (∃ p ∈ w.strs, w.strClaims p (w.key o) = some true ∧
        w.strOf p o ctx = some (some (valueOf w o (strFromProviders w (getType w h o).2 o (w.key o) ctx).1))) ∨
      w.plain o = some (valueOf w o (strFromProviders w (getType w h o).2 o (w.key o) ctx).1) ∨
      valueOf w o (strFromProviders w (getType w h o).2 o (w.key o) ctx).1 = w.repr o
    generalize hh : (getType w h o).2 = h' at *
    unfold strFromProviders
    split
    · exact .inr (.inr rfl)
    · split
      · exact .inr (hplain _ rfl)
      · rename_i p hg
        obtain ⟨hp, hcl⟩ := a3' _ _ hg
        cases hs : w.strOf p o ctx with
        | none => exact .inr (.inr rfl)
        | some s =>
          cases s with
          | none => exact .inr (hplain _ rfl)
          | some s => exact .inl ⟨p, hp, hcl, hs⟩
      · rcases textLoop_own (w := w) (o := o) (t := w.key o) (ctx := ctx) (l := w.strs) h' with hx | hx | ⟨p, hp, hcl, s, hs, hx⟩
        · rw [hx]; exact .inr (.inr rfl)
        · rw [hx]; exact .inr (hplain _ rfl)
        · rw [hx]
          cases s with
          | none => exact .inr (hplain _ rfl)
          | some s => exact .inl ⟨p, hp, hcl, hs⟩

/-- **C100**, which resolver: extensions first, in their order; then the first type of the table the value is
an instance of; else the attributes of the value (where asking an extension fails, also those). -/
theorem c100_which {w : World} (hu : Uniform w) (l : List (Obj × Option Str)) (o : Obj) (ctx : Option Str)
    (hn : (w.name (w.key o)).isSome) (hh : w.hashable (w.key o) = true) :
    ∃ n, (details w (after w .new l) o ctx).1.1 = .type (w.key o) n (find w o (w.key o)) := by
  obtain ⟨a1, a2, a3⟩ := after_ok hu l _ (new_ok w)
  rw [(details_ok hu a1 a2 a3 o ctx).1]
  cases hx : w.name (w.key o) with
  | none => rw [hx] at hn; cases hn
  | some n => exact ⟨n, by simp [answer, hx, hh]⟩

theorem c100_extension_first {w : World} {o : Obj} {t : Ty} {ps qs : List Prov} {p : Prov}
    (hr : w.resolvers = ps ++ p :: qs) (hps : ∀ q ∈ ps, w.claims q t = some false) (hp : w.claims p t = some true) :
    find w o t = some (.extension p) := by
  have : firstClaim (fun p => w.claims p t) w.resolvers = some (some p) := by
    rw [hr]
    clear hr
    induction ps with
    | nil => simp [firstClaim, hp]
    | cons q ps ih =>
      rw [List.cons_append, firstClaim, hps q (List.mem_cons_self ..)]
      exact ih (fun x hx => hps x (List.mem_cons_of_mem _ hx))
  simp only [find, this]

theorem c100_table {w : World} {o : Obj} {t : Ty} {es fs : List (Ty × Option Resolver)} {e : Ty × Option Resolver}
    (hr : ∀ p ∈ w.resolvers, w.claims p t = some false) (ht : w.table = es ++ e :: fs)
    (hes : ∀ x ∈ es, w.isinst o x.1 = false) (he : w.isinst o e.1 = true) : find w o t = e.2 := by
  have h1 : firstClaim (fun p => w.claims p t) w.resolvers = some none := by
    generalize w.resolvers = l at hr
    induction l with
    | nil => rfl
    | cons p l ih =>
      rw [firstClaim, hr p (List.mem_cons_self ..)]
      exact ih (fun x hx => hr x (List.mem_cons_of_mem _ hx))
  have h2 : w.table.find? (fun e => w.isinst o e.1) = some e := by
    rw [ht, List.find?_append]
    have : es.find? (fun e => w.isinst o e.1) = none := by
      rw [List.find?_eq_none]
      intro x hx
      simp [hes x hx]
    rw [this]
    simp [he]
  simp only [find, h1, h2]

/-! ### An example and witnesses -/

/-- Type `1` is a list (in the table), type `2` is claimed by the provider `7` of texts, which fails for the value
`20` only; the value `30` is a list that says its `__class__` is the type `3`, `31` is of that type. -/
def exWorld : World where
  cls o := if o = 10 then some 1 else if o = 20 ∨ o = 21 then some 2 else some 3
  real o := if o = 10 ∨ o = 30 then 1 else if o = 20 ∨ o = 21 then 2 else 3
  name _ := some c!"T"
  hashable _ := true
  resolvers := []
  claims _ _ := some false
  table := [(1, some (.table 0))]
  isinst o t := (o = 10 ∨ o = 30) && t = 1
  strs := [7]
  strClaims p t := some (p = 7 && t = 2)
  strOf _ o _ := if o = 20 then none else some (some c!"provided")
  plain _ := some c!"plain"
  repr _ := c!"repr"

/-- The same without the value that is not what it says. -/
def exWorld' : World := { exWorld with isinst := fun o t => (o = 10) && t = 1 }

theorem c100_example : Uniform exWorld' ∧ NeverFails exWorld' 1 ∧
    (details exWorld' (after exWorld' .new [(21, none), (10, none), (31, none)]) 10 none).1 =
      (.type 1 c!"T" (some (.table 0)), c!"plain") := by
  refine ⟨?_, ?_, by decide⟩
  · intro o o' h e he
    simp only [exWorld', exWorld, List.mem_singleton] at he
    subst he
    simp only [exWorld', exWorld, World.key] at h ⊢
    by_cases h1 : o = 10 <;> by_cases h2 : o' = 10 <;> simp_all
    · by_cases h3 : o' = 20 ∨ o' = 21 <;> simp_all
    · by_cases h3 : o = 20 ∨ o = 21 <;> simp_all
  · intro p hp o ctx _ hcl
    simp [exWorld', exWorld] at hcl

/-- A provider that fails for one value is not asked for any other of the type again: `21` is shown with the
provider's text, unless `20` was shown before. -/
theorem c100_failing_provider_witness :
    (details exWorld' .new 21 none).1.2 = c!"provided" ∧
    (details exWorld' (after exWorld' .new [(20, none)]) 21 none).1.2 = c!"plain" := by decide

/-- The other way round: when the provider worked before, its failure is shown by `repr` instead of the usual text. -/
theorem c100_failing_later_witness :
    (details exWorld' .new 20 none).1.2 = c!"plain" ∧
    (details exWorld' (after exWorld' .new [(21, none)]) 20 none).1.2 = c!"repr" := by decide

/-- A list that says it is of another class makes the values of that class be expanded as lists. -/
theorem c100_disguise_witness :
    (details exWorld .new 31 none).1.1 = .type 3 c!"T" (some .default) ∧
    (details exWorld (after exWorld .new [(30, none)]) 31 none).1.1 = .type 3 c!"T" (some (.table 0)) := by decide

end TypeCache
