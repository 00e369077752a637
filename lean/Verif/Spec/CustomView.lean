import Verif.Model.CustomView
import Verif.Spec.Lend

/-!
# Specification of custom views

A custom view is read as the list of its fields, without those marked with `default`.
-/
namespace Verif.Custom
open Borrow

/-- `default` is written somewhere in an attribute of the field. -/
def marked (attrs : List Attr) : Bool := attrs.any fun a => a.any fun m => m.key = .default

/-- `default` is not in an attribute with a valued word, see `C91_default_after_value_fails`. -/
def Clear (attrs : List Attr) : Prop := ∀ a ∈ attrs, (∃ m ∈ a, m.key = .default) → ∀ m ∈ a, m.value = none

mutual
/-- The struct compiles: fields that are not views are marked with `default`. -/
def Ty.Ok : Ty → Prop
  | .unit => True
  | .view _ _ _ _ _ => True
  | .opt t => t.Ok
  | .tuple ts => Ty.OkAll ts
  | .named fs => fs.Ok
  | .unnamed ts => Ty.OkAll ts
  | .plain => False
def Ty.OkAll : List Ty → Prop
  | [] => True
  | t :: ts => t.Ok ∧ Ty.OkAll ts
def Fields.Ok : Fields → Prop
  | .nil => True
  | .cons _ attrs t fs => Clear attrs ∧ (marked attrs = false → t.Ok) ∧ fs.Ok
end

mutual
/-- What a user would ask for without the struct: the tuple of its fields. -/
def Ty.req : Ty → Req
  | .unit => .unit
  | .view s exclusive create trackOk _ => .view s exclusive create trackOk
  | .opt t => .opt t.req
  | .tuple ts => .tuple (Ty.reqs ts)
  | .named fs => .tuple fs.reqs
  | .unnamed ts => .tuple (Ty.reqs ts)
  | .plain => .unit
def Ty.reqs : List Ty → List Req
  | [] => []
  | t :: ts => t.req :: Ty.reqs ts
def Fields.reqs : Fields → List Req
  | .nil => []
  | .cons _ attrs t fs => if marked attrs then fs.reqs else t.req :: fs.reqs
end

mutual
/-- The view of the storage `s` is one of those of the type: not in a field marked with `default`. -/
inductive Has (s : Nat) (x : Bool) (kind : Option Track.Kind) : Ty → Prop
  | here (create trackOk) : Has s x kind (.view s x create trackOk kind)
  | opt {t} : Has s x kind t → Has s x kind (.opt t)
  | tuple {t ts} : t ∈ ts → Has s x kind t → Has s x kind (.tuple ts)
  | unnamed {t ts} : t ∈ ts → Has s x kind t → Has s x kind (.unnamed ts)
  | named {fs} : HasF s x kind fs → Has s x kind (.named fs)
inductive HasF (s : Nat) (x : Bool) (kind : Option Track.Kind) : Fields → Prop
  | here {name attrs t fs} : marked attrs = false → Has s x kind t → HasF s x kind (.cons name attrs t fs)
  | there {name attrs t fs} : HasF s x kind fs → HasF s x kind (.cons name attrs t fs)
end

mutual
/-- The value is one of the type: marked fields have their default value, the others hold their views. -/
def Fills : Ty → Held → Prop
  | .unit, .unit => True
  | .view s x _ _ _, .view s' x' _ => s' = s ∧ x' = x
  | .opt _, .opt none => True
  | .opt t, .opt (some v) => Fills t v
  | .tuple ts, .tuple vs => FillsAll ts vs
  | .named fs, .struct vs => FillsFields fs vs
  | .unnamed ts, .struct vs => FillsAll ts vs
  | _, _ => False
def FillsAll : List Ty → List Held → Prop
  | [], [] => True
  | t :: ts, v :: vs => Fills t v ∧ FillsAll ts vs
  | _, _ => False
def FillsFields : Fields → List Held → Prop
  | .nil, [] => True
  | .cons _ attrs t fs, v :: vs => (if marked attrs then v = .dflt else Fills t v) ∧ FillsFields fs vs
  | _, _ => False
end

def Held.isDflt : Held → Bool
  | .dflt => true
  | _ => false

mutual
/-- The views in a value. -/
def Held.views : Held → View
  | .unit => .unit
  | .view s x all => .view s x all
  | .opt none => .opt none
  | .opt (some v) => .opt (some v.views)
  | .tuple vs => .tuple (Held.viewsAll vs)
  | .struct vs => .tuple (Held.viewsAll vs)
  | .dflt => .unit
def Held.viewsAll : List Held → List View
  | [] => []
  | v :: vs => if v.isDflt then Held.viewsAll vs else v.views :: Held.viewsAll vs
end

end Verif.Custom

namespace Verif.Borrow
mutual
/-- The views and options of a request, tuples taken apart. -/
def Req.flat : Req → List Req
  | .unit => []
  | .view s x create trackOk => [.view s x create trackOk]
  | .opt r => [.opt r]
  | .tuple rs => Req.flatAll rs
def Req.flatAll : List Req → List Req
  | [] => []
  | r :: rs => r.flat ++ Req.flatAll rs
end
end Verif.Borrow

namespace Verif.Custom
open Borrow

mutual
/-- The struct compiles. -/
def WTy.Ok : WTy → Prop
  | .views t => t.Ok
  | .allStorages _ => True
  | .named fs => fs.Ok
  | .unnamed ts => WTy.OkAll ts
def WTy.OkAll : List WTy → Prop
  | [] => True
  | t :: ts => t.Ok ∧ WTy.OkAll ts
def WFields.Ok : WFields → Prop
  | .nil => True
  | .plain _ attrs fs => Clear attrs ∧ marked attrs = true ∧ fs.Ok
  | .cons _ attrs t fs => Clear attrs ∧ (marked attrs = false → t.Ok) ∧ fs.Ok
end

mutual
/-- The parameters a user would write without the struct. -/
def WTy.flat : WTy → List WReq
  | .views t => [.views t.req]
  | .allStorages x => [.allStorages x]
  | .named fs => fs.flat
  | .unnamed ts => WTy.flatAll ts
def WTy.flatAll : List WTy → List WReq
  | [] => []
  | t :: ts => t.flat ++ WTy.flatAll ts
def WFields.flat : WFields → List WReq
  | .nil => []
  | .plain _ _ fs => fs.flat
  | .cons _ attrs t fs => if marked attrs then fs.flat else t.flat ++ fs.flat
end

mutual
/-- The value is one of the type. -/
def WFills : WTy → Held → Prop
  | .views t, v => Fills t v
  | .allStorages x, .view s x' all => s = allCell ∧ x' = x ∧ all = false
  | .named fs, .struct vs => WFillsFields fs vs
  | .unnamed ts, .struct vs => WFillsAll ts vs
  | _, _ => False
def WFillsAll : List WTy → List Held → Prop
  | [], [] => True
  | t :: ts, v :: vs => WFills t v ∧ WFillsAll ts vs
  | _, _ => False
def WFillsFields : WFields → List Held → Prop
  | .nil, [] => True
  | .plain _ _ fs, v :: vs => v = .dflt ∧ WFillsFields fs vs
  | .cons _ attrs t fs, v :: vs => (if marked attrs then v = .dflt else WFills t v) ∧ WFillsFields fs vs
  | _, _ => False
end

mutual
/-- The values the parameters would have had without the struct. -/
def parts : WTy → Held → List View
  | .views _, v => [v.views]
  | .allStorages _, v => [v.views]
  | .named fs, .struct vs => partsFields fs vs
  | .unnamed ts, .struct vs => partsAll ts vs
  | _, _ => []
def partsAll : List WTy → List Held → List View
  | t :: ts, v :: vs => parts t v ++ partsAll ts vs
  | _, _ => []
def partsFields : WFields → List Held → List View
  | .plain _ _ fs, _ :: vs => partsFields fs vs
  | .cons _ attrs t fs, v :: vs => (if marked attrs then [] else parts t v) ++ partsFields fs vs
  | _, _ => []
end

/-! ## `IntoIter` -/

/-- `item_field_skip` is written in the first attribute of the field. -/
def skips (f : IterField) : Bool := match f.attrs.head? with
  | none => false
  | some a => a.any fun m => m.key = .itemFieldSkip

/-- The (last) `item_field_name` written in the first attribute of the field. -/
def renamed (f : IterField) : Option (List Char) := match f.attrs.head? with
  | none => none
  | some a => (a.filterMap fun m => if m.key = .itemFieldName then m.value else none).getLast?

/-- `b` is `s` without the copies of `p` it begins with. -/
def Stripped (p s b : List Char) : Prop := (∃ n, s = (List.replicate n p).flatten ++ b) ∧ ¬ p <+: b

/-- `n` is the name of the field in the item: the one given by the user, or the name of the field without `v_` (`vm_` for `ViewMut`). -/
def Named (f : IterField) (n : List Char) : Prop :=
  match renamed f with
  | some m => n = m
  | none => (f.shape = .view → Stripped "v_".toList f.name n) ∧ (f.shape = .viewMut → Stripped "vm_".toList f.name n)

end Verif.Custom
