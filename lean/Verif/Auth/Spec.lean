import Verif.Auth.Model
/-! Vocabulary for the authentication properties: facts about the history of messages only. -/

namespace Auth.Spec

/-- The token presented by a message, if it is an authentication message. -/
def presents : Req → Option (Option Token)
  | .dapAuthorize t => some t
  | .lineAuthenticate t => some (some t)
  | _ => none

/-- The message presents the right token. -/
def Right (tok : Token) (r : Req) : Prop := presents r = some (some tok)

/-- The message presents a wrong token. -/
def Wrong (tok : Token) (r : Req) : Prop := ∃ t, presents r = some t ∧ t ≠ some tok

instance (tok : Token) (r : Req) : Decidable (Right tok r) := by unfold Right; infer_instance
instance (tok : Token) (r : Req) : Decidable (Wrong tok r) :=
  match h : presents r with
  | none => isFalse (by rintro ⟨t, ht, _⟩; rw [h] at ht; cases ht)
  | some t =>
    if ht : t = some tok then
      isFalse (by rintro ⟨u, hu, hne⟩; rw [h] at hu; cases hu; exact hne ht)
    else isTrue ⟨t, h, ht⟩

/-- The message asks to disconnect. -/
def Disconnect : Req → Prop
  | .dapDisconnect _ => True
  | _ => False

instance (r : Req) : Decidable (Disconnect r) := by
  cases r <;> (unfold Disconnect; infer_instance)

/-- The history contains a message with the right token that is not followed by a wrong token nor by a
request to disconnect. -/
def Authorised (tok : Token) (hist : List Req) : Prop :=
  ∃ before r later, hist = before ++ r :: later ∧ Right tok r ∧
    ∀ x ∈ later, ¬ Wrong tok x ∧ ¬ Disconnect x

/-- Number of wrong tokens presented in a stretch of history. -/
def wrongs (tok : Token) (hist : List Req) : Nat := hist.countP (fun r => decide (Wrong tok r))

end Auth.Spec
