import Verif.Jump.Model
/-! What a thread does, line by line, and the events Python 3.12 makes of it. -/

namespace Jump.Spec

/-- The line of an offset by the documented meaning of `co_lines()`: ranges include their start, not their end. -/
def OnLine (c : Code) (off line : Nat) : Prop := ∃ a b, (a, b, line) ∈ c.lines ∧ a ≤ off ∧ off < b

inductive Visit where
  /-- execution comes to a line from another one (not by a jump back) -/
  | enter (c : Code) (line : Nat)
  /-- a loop goes round within its line; `both`: Python makes a line event besides the jump event -/
  | again (c : Code) (start target line : Nat) (both : Bool)
  /-- a jump back from line `from` to another line -/
  | back (c : Code) (start target source line : Nat)
  /-- a jump forward within a line, or before a line is entered -/
  | forward (c : Code) (start target source : Nat)
  deriving DecidableEq, Repr

def events : Visit → List Ev
  | .enter c l => [.line c l]
  | .again c a b l both => .jump c a b l :: if both then [.line c l] else []
  | .back c a b s l => [.jump c a b s, .line c l]
  | .forward c a b s => [.jump c a b s]

/-- What is to be considered at a visit: its line, once. -/
def expected : Visit → List (Nat × Nat)
  | .enter c l => [(c.file, l)]
  | .again c _ _ l _ => [(c.file, l)]
  | .back c _ _ _ l => [(c.file, l)]
  | .forward .. => []

/-- The offsets of a visit are on the lines it names. -/
def Valid : Visit → Prop
  | .enter _ _ => True
  | .again c a b l _ => b ≤ a ∧ OnLine c a l ∧ OnLine c b l
  | .back c a b s l => b ≤ a ∧ s ≠ l ∧ OnLine c a s ∧ OnLine c b l
  | .forward _ a b _ => a < b

/-- Whether an unconditional jump goes back on its own line is a matter of the code, not of the visit. -/
def backOnLine : Visit → Option (Nat × Nat × Bool)
  | .enter .. => none
  | .again c a _ _ _ => some (c.id, a, true)
  | .back c a _ _ _ => some (c.id, a, false)
  | .forward c a _ _ => some (c.id, a, false)

/-- One code object has one number, and a jump always goes to the same place. -/
def Consistent (vs : List Visit) : Prop :=
  ∀ v ∈ vs, ∀ w ∈ vs, ∀ i a x y, backOnLine v = some (i, a, x) → backOnLine w = some (i, a, y) → x = y

/-- No offset of a jump is where a range of another line ends. -/
def Clear (c : Code) (off line : Nat) : Prop := ∀ a b l, (a, b, l) ∈ c.lines → a ≤ off → off ≤ b → l = line

def ClearVisit : Visit → Prop
  | .enter .. => True
  | .again c a b l both => Clear c a l ∧ Clear c b l ∧ (both = true → l ≤ 256)
  | .back c a b s l => Clear c a s ∧ Clear c b l
  | .forward .. => True

/-- After a round of a loop for which no line event comes, the next line that is entered is another one. `last` is the
line of such a round. -/
def NoClash : Option (Nat × Nat) → List Visit → Prop
  | _, [] => True
  | last, .enter c l :: r => last ≠ some (c.file, l) ∧ NoClash none r
  | _, .again c _ _ l both :: r => NoClash (if both then none else some (c.file, l)) r
  | last, .back c _ _ _ l :: r => last ≠ some (c.file, l) ∧ NoClash none r
  | last, .forward .. :: r => NoClash last r

end Jump.Spec
