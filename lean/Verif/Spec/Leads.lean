import Verif.Spec.Iter

/-!
# C101: which storage drives an iteration over nested tuples

`guide/master/src/going-deeper/sparse-set.md:84-86`, `src/iter/mixed.rs:54-80`, `src/iter/into_shiperator.rs:399-436`.
-/
namespace Verif.IterSpec
open StoSpec Iter
variable {V : Type}

mutual
/-- Views, filters on flags, `!view`, `as_optional`, and tuples of these, nested in any way. -/
def bundle : Qry V → Bool
  | .view _ | .opt _ | .absent _ _ | .flag _ _ _ => true
  | .tup l => bundles l
  | _ => false
def bundles : List (Qry V) → Bool
  | [] => true
  | q :: l => bundle q && bundles l
end

/-- A view, maybe in parentheses. -/
def onlyView : Qry V → Bool
  | .view _ => true
  | .tup [q] => onlyView q
  | _ => false

/-- What a tuple announces when its members announce `cs`: the member `whole` counts whole, the others half. -/
def bill (r : Rnd) (whole : Option Nat) (cs : List Nat) : Nat :=
  (cs.zipIdx.map fun x => if whole = some x.2 then r.same x.1 else r.half x.1).sum

/-- `Leads r q c u d`: `q` announces the cost `c` when it could drive an iteration, `u` once another member of its tuple does, and
`d` is the storage it walks when it drives; some things cannot. In a tuple the first of the members with the least cost drives;
it counts whole when it is a view. -/
inductive Leads (r : Rnd) : Qry V → Nat → Nat → Option (Win V) → Prop
  | view (w : Win V) : Leads r (.view w) w.set.dense.length w.set.dense.length (some w)
  | opt (w : Win V) : Leads r (.opt w) w.set.dense.length w.set.dense.length none
  | absent (w : Win V) : Leads r (.absent w false) (r.notFactor w.set.dense.length) (r.notFactor w.set.dense.length) none
  | absentMut (w : Win V) : Leads r (.absent w true) usizeMax usizeMax none
  | flag (k : Flag) (w : Win V) : Leads r (.flag k false w) (r.twice w.set.dense.length) (r.twice w.set.dense.length) (some w)
  | notFlag (k : Flag) (w : Win V) : Leads r (.flag k true w) (r.notFactor (r.twice w.set.dense.length))
      (r.notFactor (r.twice w.set.dense.length)) (some w)
  | alone {q : Qry V} {c u : Nat} {d : Option (Win V)} : Leads r q c u d → Leads r (.tup [q]) c u d
  | tup {l : List (Qry V)} {cs us : List Nat} {ds : List (Option (Win V))} {k c : Nat} {q : Qry V} {w : Win V} :
      2 ≤ l.length → cs.length = l.length → us.length = l.length → ds.length = l.length →
      (∀ (i : Nat) q c u d, l[i]? = some q → cs[i]? = some c → us[i]? = some u → ds[i]? = some d → Leads r q c u d) →
      l[k]? = some q → cs[k]? = some c → ds[k]? = some (some w) →
      (∀ (j : Nat) c' w', cs[j]? = some c' → ds[j]? = some (some w') → c ≤ c' ∧ (j < k → c < c')) →
      Leads r (.tup l) (bill r (if onlyView q then some k else none) (us.set k c)) (bill r none us) (some w)

end Verif.IterSpec
