import Verif.Spec.Tracking
import Verif.Model.Track

/-!
# What a user may rely on about declared and run-time tracking

What is written in `#[track(...)]`, and the histories during which something is tracked.
-/
namespace Verif.TrkSpec
open StoSpec Tracking Track
variable {T : Type}

/-- The four things that can be tracked. -/
inductive What where
  | insertion | modification | deletion | removal
  deriving DecidableEq, Repr

/-- Its name in the attribute. -/
def What.name : What → String
  | .insertion => "Insertion"
  | .modification => "Modification"
  | .deletion => "Deletion"
  | .removal => "Removal"

/-- `#[track(tokens)]` asks for it. -/
def Declared (tokens : List String) (w : What) : Prop := w.name ∈ tokens ∨ "All" ∈ tokens
instance (tokens : List String) (w : What) : Decidable (Declared tokens w) := inferInstanceAs (Decidable (_ ∨ _))

/-- The attribute is well formed. -/
def WellFormed (tokens : List String) : Prop :=
  ∀ t ∈ tokens, t = "Insertion" ∨ t = "Modification" ∨ t = "Deletion" ∨ t = "Removal" ∨ t = "All"

/-- The attributes `#[track...]` of a component. -/
def trackAttrs (attrs : List DeriveAttr) : List DeriveAttr :=
  attrs.filter fun a => a.outer && decide (a.name = some "track")

/-- The component asks for it: in some `#[track(...)]`, by its name or with `All`. -/
def DeclaredOn (attrs : List DeriveAttr) (w : What) : Prop :=
  ∃ a ∈ trackAttrs attrs, ∃ toks, a.arg = .list toks ∧ (Tok.ident w.name ∈ toks ∨ Tok.ident "All" ∈ toks)

/-- All its `#[track...]` are lists of the documented words. -/
def WellFormedOn (attrs : List DeriveAttr) : Prop :=
  ∀ a ∈ trackAttrs attrs, ∃ toks, a.arg = .list toks ∧ ∀ s, Tok.ident s ∈ toks →
    s = "Insertion" ∨ s = "Modification" ∨ s = "Deletion" ∨ s = "Removal" ∨ s = "All"

/-- Does a storage keep track of it? -/
def Tracked (s : SparseSet T) : What → Bool
  | .insertion => s.trkIns
  | .modification => s.trkMod
  | .deletion => s.trkDel
  | .removal => s.trkRem

/-- Can a view of this type be asked for it? (`inserted()`, `is_inserted()`, ... exist) -/
def Offers (k : Kind) : What → Bool
  | .insertion => k.hasInsertion
  | .modification => k.hasModification
  | .deletion => k.hasDeletion
  | .removal => k.hasRemoval

/-- The removals of a history with their timestamps, oldest first, since they were last cleared: what
`removed()` would list had everything always been tracked. -/
def removedLog (h : List (Event T)) : List (EId × Nat) := (after (Sto.init true true true true) h).removed
/-- The same for the deletions. -/
def deletedLog (h : List (Event T)) : List (EId × Nat × T) := (after (Sto.init true true true true) h).deleted

end Verif.TrkSpec
