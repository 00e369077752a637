import Verif.Model.LocalStorage
import Verif.Lemmas.Lives
import Verif.Lemmas.WorldReach
import Verif.Lemmas.Tracking
import Verif.Props.World

/-!
# C88: what the views of a cloned storage report

`clone_storages_to`: "Tracking is not cloned. Components will count as inserted in `other`."
-/
namespace Verif
open EntSpec (Event)
open WSpec (Reach Cloneable demo demoFlags demo_reach)
open StoSpec (Lives Sto)
open Tracking (View isWithin)
open World
variable {V : Type} {fl : Flags}

/-- The four kinds of changes a storage records: insertions, modifications, deletions, removals. -/
def StoSpec.tracks (s : SparseSet V) : Bool × Bool × Bool × Bool := (s.trkIns, s.trkMod, s.trkDel, s.trkRem)

/-- `c` is a clone of `s` made at the time `t` that tracks `tr`: it holds the clones of the components; if it
tracks insertions, they all count as inserted at `t`, for any view; none counts as modified; no removal and
no deletion is reported. -/
def StoSpec.CountsInserted (s c : SparseSet V) (cl : V → V) (t : Nat) (tr : Bool × Bool × Bool × Bool) : Prop :=
  StoSpec.tracks c = tr ∧
  (∀ e : EId, e.gen < 65535 → ∃ x, s.get e = .ok x ∧ c.get e = .ok (x.map cl)) ∧
  ∀ v : View V, v.set = c →
    (tr.1 = true → ∀ e : EId, e.gen < 65535 → ∃ i, v.isInserted e = .ok i ∧
      (i = true ↔ (∃ x, c.get e = .ok (some x)) ∧ v.lastInsertion < t ∧ t ≤ v.current)) ∧
    (tr.2.1 = true → ∀ e : EId, e.gen < 65535 → v.isModified e = .ok false) ∧
    v.removed = [] ∧ v.deleted = []
open StoSpec (tracks CountsInserted)

theorem StoSpec.clone_counts {s : SparseSet V} {a : Sto V} {L : List (SparseSet.Cell V)} (h : SparseSet.Abs True s a L) (fl : Flags) (cl : Nat → V → V)
    (t k : Nat) : CountsInserted s (cloneSto fl cl t k s) (cl k) t (fl k) := by
  obtain ⟨L', hc⟩ := SparseSet.abs_clone h fl cl t k
  have hrow : ∀ e, TrkSpec.rowOf (a.cloned fl cl t k) e = (TrkSpec.rowOf a e).map fun r => ⟨r.gen, cl k r.val, t, 0⟩ := by
    intro e
    unfold TrkSpec.rowOf StoSpec.Sto.cloned
    simp only
    cases a.rows e.idx with
    | none => rfl
    | some r => simp only [Option.map_some, Option.filter_some]; split <;> rfl
  have hlk : ∀ (e : EId), StoSpec.lookup (a.cloned fl cl t k).rows e = (StoSpec.lookup a.rows e).map (cl k) := by
    intro e
    unfold StoSpec.lookup StoSpec.Sto.cloned
    simp only
    cases a.rows e.idx with
    | none => rfl
    | some r => simp only [Option.map_some, Option.bind_some]; split <;> rfl
  refine ⟨rfl, fun e he => ⟨_, h.get he, by rw [hc.get he, hlk]⟩, fun v hv => ⟨fun hi e he => ?_, fun hm e he => ?_, ?_, ?_⟩⟩
  · refine ⟨_, (TrkSpec.flags_ok hc he v hv).1 hi, ?_⟩
    have hx : (∃ x, (cloneSto fl cl t k s).get e = .ok (some x)) ↔ ∃ r, TrkSpec.rowOf a e = some r := by
      rw [hc.get he, hlk]
      constructor
      · rintro ⟨x, hx⟩
        injection hx with hx
        obtain ⟨y, hy, _⟩ := Option.map_eq_some_iff.1 hx
        obtain ⟨r, hr, _⟩ := TrkSpec.lookup_iff.1 hy
        exact ⟨r, hr⟩
      · rintro ⟨r, hr⟩
        exact ⟨cl k r.val, by rw [TrkSpec.lookup_iff.2 ⟨r, hr, rfl⟩]; rfl⟩
    rw [hx, hrow]
    cases TrkSpec.rowOf a e with
    | none => simp
    | some r => simp [isWithin]
  · rw [(TrkSpec.flags_ok hc he v hv).2 hm, hrow]
    cases TrkSpec.rowOf a e <;> simp [isWithin]
  · unfold View.removed; rw [hv]; rfl
  · unfold View.deleted; rw [hv]; rfl

theorem World.cloneLocal_eq (fl : Flags) (cl : Nat → V → V) (t k : Nat) (s : SparseSet V) :
    ∃ fl' : Flags, fl' k = tracks s ∧ cloneLocal fl cl t k s = cloneSto fl' cl t k s := by
  refine ⟨fun _ => tracks s, rfl, ?_⟩
  unfold cloneLocal cloneSto newSto tracks
  simp only
  cases s.trkIns <;> cases s.trkMod <;> rfl

/-- C88, `clone_storages_to` with ordinary storages: every cloned storage tracks what its component type
declares and nothing else, whatever was being tracked in the source; its components count as inserted now
for views outside of workloads and for systems that ran before; not as modified; nothing is reported removed or
deleted. Missing: storages of thread-bound components, see `C88_local` and `C88_local_fails`. -/
theorem C88_clone_storages_partial {w : World V} (o : World V) {h : List Event} (hr : Reach fl w h) (cl : Nat → V → V)
    {k : Nat} (hk : Cloneable w k) :
    ∃ s c, lookupK w.stos k = some s ∧ lookupK (w.cloneStoragesTo fl cl o).stos k = some c ∧
      CountsInserted s c (cl k) o.counter (fl k) ∧ (w.cloneStoragesTo fl cl o).counter = o.counter + 1 ∧
      ((fl k).1 = true → 0 < o.counter → ∀ now, o.counter < now → ∀ e x, e.gen < 65535 → w.get k e = .ok (some x) →
        (View.new c none now).isInserted e = .ok true ∧
        ∀ last, last < o.counter → (View.new c (some last) now).isInserted e = .ok true) := by
  obtain ⟨A, Q, hok⟩ := reach_ok hr
  obtain ⟨s, hs, hcl⟩ := hk
  obtain ⟨h1, h2, h3⟩ := cloneLoop_lookup (fl := fl) cl o.counter w.stos o.tick hok.nodup
  have hc : lookupK (w.cloneStoragesTo fl cl o).stos k = some (cloneSto fl cl o.counter k s) := by
    show lookupK (cloneLoop fl cl o.counter w.stos o.tick).stos k = _
    rw [h1, hs]
    simp [hcl]
  obtain ⟨a, ha⟩ : ∃ a L, SparseSet.Abs True s a L := by
    have := hok.sto k
    rw [hs] at this
    generalize A k = ao at this
    cases this with
    | some hx =>
      exact ⟨_, _, hx.toAbs⟩
  obtain ⟨L, hL⟩ := ha
  have hcount := StoSpec.clone_counts hL fl cl o.counter k
  refine ⟨s, _, hs, hc, hcount, h3, fun hi ho now hnow e x he hx => ?_⟩
  have hsx : s.get e = .ok (some x) := by
    unfold World.get at hx
    rw [hs] at hx
    exact hx
  have hcx : (cloneSto fl cl o.counter k s).get e = .ok (some (cl k x)) := by
    obtain ⟨y, h4, h5⟩ := hcount.2.1 e he
    rw [hsx] at h4
    injection h4 with h4
    rw [h5, ← h4]
    rfl
  have hins : ∀ v : View V, v.set = cloneSto fl cl o.counter k s → v.lastInsertion < o.counter → o.counter ≤ v.current →
      v.isInserted e = .ok true := by
    intro v hv h6 h7
    obtain ⟨i, h8, h9⟩ := (hcount.2.2 v hv).1 hi e he
    rw [h8, h9.2 ⟨⟨_, hcx⟩, h6, h7⟩]
  exact ⟨hins _ rfl ho (Nat.le_of_lt hnow), fun last hl => hins _ rfl hl (Nat.le_of_lt hnow)⟩

/-- C88 for storages of thread-bound components, of any life: the same, but the clone tracks what the source
tracks. -/
theorem C88_local {s : SparseSet V} {a : Sto V} (hl : Lives s a) (fl : Flags) (cl : Nat → V → V) (t k : Nat) :
    CountsInserted s (cloneLocal fl cl t k s) (cl k) t (tracks s) ∧ ∃ a', Lives (cloneLocal fl cl t k s) a' := by
  obtain ⟨fl', h1, h2⟩ := World.cloneLocal_eq fl cl t k s
  obtain ⟨L, hL⟩ := hl.abs
  rw [h2, ← h1]
  exact ⟨StoSpec.clone_counts hL fl' cl t k, _, .cloned fl' cl t k hl⟩

/-- A storage whose tracking of modifications and removals was turned on while it was used. -/
def StoSpec.turnedOn : SparseSet Nat :=
  let s : SparseSet Nat := SparseSet.new false false false false
  match s.trackModification.trackRemoval.insert ⟨0, 0⟩ 10 1 with
  | .ok (_, s) => s
  | .error _ => s

theorem StoSpec.turnedOn_lives : ∃ a, Lives turnedOn a := by
  have h1 : Lives (SparseSet.new false false false false : SparseSet Nat) _ := .new _ _ _ _
  have h2 := h1.call .trackModification (by intro e v now h; cases h)
  have h3 := h2.call .trackRemoval (by intro e v now h; cases h)
  exact ⟨_, h3.call (s' := turnedOn) (.insert (e := ⟨0, 0⟩) (v := 10) (now := 1) (r := .inserted) (by decide) rfl)
    (by intro e v now h; cases h)⟩
open StoSpec (turnedOn turnedOn_lives)

/-- "Tracking is not cloned" is false of storages of thread-bound components: a storage of a type that declares no
tracking, on which tracking was turned on, has a clone that tracks. The clone of an ordinary storage with the same
content does not. -/
theorem C88_local_fails : ∃ (s : SparseSet Nat) (a : Sto Nat) (fl : Flags), Lives s a ∧ fl 0 = (false, false, false, false) ∧
    tracks s = (false, true, false, true) ∧
    tracks (cloneLocal fl (fun _ v => v) 5 0 s) = (false, true, false, true) ∧
    tracks (cloneSto fl (fun _ v => v) 5 0 s) = (false, false, false, false) := by
  obtain ⟨a, ha⟩ := turnedOn_lives
  exact ⟨turnedOn, a, fun _ => (false, false, false, false), ha, rfl, rfl, rfl, rfl⟩

/-! ## Non-vacuity -/

example : Cloneable (demo.registerClone (fun _ => (true, true, true, true)) 0) 0 := ⟨_, rfl, rfl⟩

/-- Every type declares all kinds of tracking. -/
def WSpec.allFlags : Flags := fun _ => (true, true, true, true)
open WSpec (allFlags)

/-- A component in a tracking storage, cloned into a new world: it counts as inserted, not as modified. -/
def WSpec.toClone : World Nat := (((World.new : World Nat).addEntity allFlags [(0, some 7)]).toOption.map (·.2.2.registerClone allFlags 0)).getD World.new
open WSpec (toClone)
example : Reach allFlags toClone [.added ⟨0, 0⟩] :=
  .registerClone 0 (.addEntity (cs := [(0, some 7)]) (e := ⟨0, 0⟩) (r := .returned) (.init false) rfl (by unfold WSpec.Fits; decide))
example : Cloneable toClone 0 ∧ toClone.get 0 ⟨0, 0⟩ = .ok (some 7) ∧
    ∃ c, lookupK (toClone.cloneStoragesTo allFlags (fun _ v => v) World.new).stos 0 = some c ∧
      (View.new c none 9).isInserted ⟨0, 0⟩ = .ok true ∧ (View.new c none 9).isModified ⟨0, 0⟩ = .ok false :=
  ⟨⟨_, rfl, rfl⟩, rfl, _, rfl, rfl, rfl⟩

end Verif
