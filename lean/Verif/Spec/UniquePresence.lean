import Verif.Model.UniquePresence

/-!
# Specification of the presence of uniques

The workloads and worlds C84 is about.
-/
namespace Verif.Borrow

/-- The storage of a unique. -/
def StoType.IsUnique : StoType → Prop
  | .unique _ => True
  | _ => False

/-- `shipyard::unique::UniqueStorage` -/
def uniqueStorage : List Char := ['s', 'h', 'i', 'p', 'y', 'a', 'r', 'd', ':', ':', 'u', 'n', 'i', 'q', 'u', 'e', ':', ':', 'U', 'n', 'i', 'q', 'u', 'e', 'S', 't', 'o', 'r', 'a', 'g', 'e']

/-- Custom storages do not have the name of a unique. -/
def Regular (types : Nat → StoType) : Prop :=
  ∀ s name, types s = .custom name → ¬ uniqueStorage <+: name

mutual
/-- Views as the library makes them: those of components make the storage when it is missing, those of uniques and of entities do not;
tracking is as declared. -/
def Req.Typed (types : Nat → StoType) : Req → Prop
  | .unit => True
  | .view s _ create trackOk => trackOk = true ∧
      ((s = entities ∧ create = false ∧ types s = .entities) ∨ (create = true ∧ ∃ a, types s = .sparseSet a)
        ∨ (create = false ∧ ∃ a, types s = .unique a))
  | .opt r => r.Typed types
  | .tuple rs => Req.TypedAll types rs
def Req.TypedAll (types : Nat → StoType) : List Req → Prop
  | [] => True
  | r :: rs => r.Typed types ∧ Req.TypedAll types rs
end

mutual
/-- No `Option`. -/
def Req.NoOpt : Req → Prop
  | .unit => True
  | .view _ _ _ _ => True
  | .opt _ => False
  | .tuple rs => Req.NoOptAll rs
def Req.NoOptAll : List Req → Prop
  | [] => True
  | r :: rs => r.NoOpt ∧ Req.NoOptAll rs
end

/-- A system that takes `rs`: no `UniqueOrDefaultView(Mut)` and no `UniqueOrInitView(Mut)`; what the checks of `IntoWorkloadSystem`
accept; the counters of the cells have room. -/
structure Takes (st : Cells) (main : Nat) (types : Nat → StoType) (x : USys) (rs : List WReq) : Prop where
  params : x.params = rs.map .req
  plain : Plain st main st.me rs
  typed : ∀ q, .views q ∈ rs → q.Typed types
  views : (rs.flatMap (WReq.infos st)).Pairwise fun a b => a.storage = b.storage → a.exclusive = false ∧ b.exclusive = false
  alone : .allStorages true ∈ rs → rs.length = 1
  room : st.Room (((rs.flatMap WReq.acts).length + ((rs.map WReq.whole).flatMap View.drops).length) + 1)
  cost : st.Room (rs.map WReq.cost).sum

/-- It is given all its views. -/
def Served (st : Cells) (x : USys) : Prop := ∃ st' vs, st.takes x.params = .ok (st', some vs)
/-- It fails: one of its views cannot be made. -/
def Unserved (st : Cells) (x : USys) : Prop := ∃ st', st.takes x.params = .ok (st', none)

end Verif.Borrow
