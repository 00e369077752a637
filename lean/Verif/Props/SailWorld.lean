import Verif.Props.SailTime
import Verif.Props.WorldIter

/-!
# Queries over a world, with the arithmetic of the code: C86
-/
namespace Verif.WorldIter
open StoSpec IterSpec Iter TrkSpec
open WSpec (Reach demo)
open EntSpec (Event)
variable {V : Type} {fl : Flags}

/-- C86, with the `f32` arithmetic of the code. In every world, a query of up to 8192 views over its storages in which no
`!&mut view` is nested deeper than in the tuple it filters can be built, and yields the entities that match, each once. -/
theorem C86_query_code {wd : World V} {h : List Event} (hr : Reach fl wd h) {q : VQry V} (hq : Over wd q)
    (hn : flatExclusive q.qry = true) (hi : ShortIds q.qry) (hl : leaves q.qry ≤ 2 ^ 13) (hc : q.qry.canCaptain = true) :
    ∃ (it : It V) (items : List (EId × Out V)), iter f32 q.qry = .ok it ∧ it.fold = .ok (items.map (·.2)) ∧
      (items.map (·.1)).Nodup ∧ (∀ x ∈ items, Valid x.1) ∧
      (∀ e o, e.gen < 65535 → ((e, o) ∈ items ↔ seen q e = some o)) ∧
      ∃ back : List (EId × Out V), it.rfold = .ok (back.map (·.2)) ∧ back.Perm items :=
  C86_query f32 hr hq (C29_sails (over_fine hr q hq) hn hi hl) hc

example := C86_query_code WSpec.demo_reach only0_over rfl (by simp [only0, VQry.qry, VQry.qrys, ShortIds, ShortIdss])
  (by decide) rfl

end Verif.WorldIter
