import Verif.Lemmas.Threads

/-!
# C67: thread affinity of storages (feature `thread_local`)
-/
namespace Verif.Threads
open Verif.Borrow

/-- Whatever threads do with the guards and iterators of a storage, in any interleaving, a value that is not `Sync` is never accessible
from two threads, a value that is not `Send` is changed on its own thread only, and a value that is neither is accessible on its own
thread only. The one exception: when the value is `Send` and not `Sync`, no iterator over `&T` may be sent to another thread. -/
theorem C67_affinity_partial {m : Made} {home : Nat} {tSend tSync iters : Bool} (hm : m.allowed tSend tSync = true) {h : List Act} {s : St}
    (hr : Reach m home tSend tSync iters h s) (hi : tSync = true ∨ tSend = false ∨ iters = false) : Affine home tSend tSync s := by
  have I := hr.inv hm
  refine ⟨?_, fun hs x hx hk => I.changes hs x hx.1 hk, fun hs hs' x hx => I.atHome hs hs' x hx.1⟩
  intro hs x y hx hy
  have hi := hi.resolve_left (by rw [hs]; decide)
  by_cases hz : ∃ z ∈ s.toks, z.kind = .iterMut
  · obtain ⟨z, hz, kz⟩ := hz
    obtain ⟨p, hp, hpp, kp⟩ := I.reb z hz (.inr kz)
    have only : ∀ w, s.usable w → w = z := by
      intro w hw
      refine (I.sole z hz kz w hw.1).resolve_right fun ke => ?_
      rw [I.same hp hw.1 kp ke] at hpp
      exact hw.2 z hz kz hpp
    rw [only x hx, only y hy]
  · exact I.one hs hi (fun z hz' kz => hz ⟨z, hz', kz⟩) x hx.1 y hy.1

/-- A token that can change the value is the only usable one, but for those that borrow from it. This needs no condition on
iterators. -/
theorem C67_alone {m : Made} {home : Nat} {tSend tSync iters : Bool} (hm : m.allowed tSend tSync = true) {h : List Act} {s : St}
    (hr : Reach m home tSend tSync iters h s) : Alone s := by
  have I := hr.inv hm
  intro x y hx hy hmx
  rcases hmx with kx | kx
  · cases ky : y.kind with
    | shared => exact absurd ky (I.noShared hx.1 hy.1 kx)
    | exclusive => exact .inl (I.same hy.1 hx.1 ky kx)
    | reborrow =>
      obtain ⟨z, hz, hp, kz⟩ := I.reb y hy.1 (.inl ky)
      rw [I.same hz hx.1 kz kx] at hp
      exact .inr (.direct hy.1 hx.1 hp)
    | iterMut =>
      obtain ⟨z, hz, hp, kz⟩ := I.reb y hy.1 (.inr ky)
      rw [I.same hz hx.1 kz kx] at hp
      exact .inr (.direct hy.1 hx.1 hp)
    | iter =>
      obtain ⟨z, hz, hp, kz⟩ := I.iter y hy.1 ky
      rcases kz with kz | kz | kz
      · exact absurd kz (I.noShared hx.1 hz kx)
      · obtain ⟨w, hw, hp', kw⟩ := I.reb z hz (.inl kz)
        rw [I.same hw hx.1 kw kx] at hp'
        exact .inr (.through (.direct hy.1 hz hp) (.direct hz hx.1 hp'))
      · rw [I.same hz hx.1 kz kx] at hp
        exact .inr (.direct hy.1 hx.1 hp)
  · rcases I.sole x hx.1 kx y hy.1 with rfl | ke
    · exact .inl rfl
    · obtain ⟨p, hp, hpp, kp⟩ := I.reb x hx.1 (.inr kx)
      rw [I.same hp hy.1 kp ke] at hpp
      exact absurd hpp (hy.2 x hx.1 kx)

/-- Exactly when a borrow is refused because of the thread: a shared one when the cell was made as neither `Send` nor `Sync`, an
exclusive one when it was made as not `Send`, and the caller is not the thread that made it. Nothing changes then. -/
theorem C67_wrong_thread (m : Made) (home thr : Nat) :
    (borrowEv (m.send home) m.isSync thr = none ↔ m = .nonSendSync ∧ thr ≠ home)
    ∧ (borrowMutEv (m.send home) thr = none ↔ (m = .nonSend ∨ m = .nonSendSync) ∧ thr ≠ home)
    ∧ ∀ (tSend tSync : Bool) (s : St),
      (m = .nonSendSync → thr ≠ home → s.step m home tSend tSync (.borrow thr) = some s)
      ∧ (m = .nonSend ∨ m = .nonSendSync → thr ≠ home → s.step m home tSend tSync (.borrowMut thr) = some s) := by
  have e1 : borrowEv (m.send home) m.isSync thr = none ↔ m = .nonSendSync ∧ thr ≠ home := by
    cases m <;> simp [Made.send, Made.isSync, borrowEv, eq_comm]
  have e2 : borrowMutEv (m.send home) thr = none ↔ (m = .nonSend ∨ m = .nonSendSync) ∧ thr ≠ home := by
    cases m <;> simp [Made.send, borrowMutEv, eq_comm]
  refine ⟨e1, e2, fun tSend tSync s => ⟨fun h1 h2 => ?_, fun h1 h2 => ?_⟩⟩
  · simp only [St.step, e1.mpr ⟨h1, h2⟩]
  · simp only [St.step, e2.mpr ⟨h1, h2⟩]

theorem small_of {s : St} (h : s.cell.shared < 1000 ∧ s.cell.dying = 0) : Small s.cell := by
  have := high
  unfold Small
  omega

/-- `C67_affinity_partial` without the exception is false: a view of a component that is `Send` and not `Sync` is iterated, the
iterator is sent to another thread (`src/sparse_set/window.rs:25` says it can be), and both threads can reach the same component. -/
theorem C67_iter_fails : ∃ h s, Reach .nonSync 0 true false true h s ∧ ¬ Affine 0 true false s := by
  let s1 := (St.init.step .nonSync 0 true false (.borrow 0)).getD St.init
  let s2 := (s1.step .nonSync 0 true false (.iter 0 0)).getD St.init
  let s3 := (s2.step .nonSync 0 true false (.move 1 7)).getD St.init
  refine ⟨[.borrow 0, .iter 0 0, .move 1 7], s3, ?_, fun A => ?_⟩
  · have r1 : Reach .nonSync 0 true false true [.borrow 0] s1 := .step .init (small_of (by decide)) (.inl rfl) rfl
    have r2 : Reach .nonSync 0 true false true [.borrow 0, .iter 0 0] s2 := .step r1 (small_of (by decide)) (.inl rfl) rfl
    exact .step r2 (small_of (by decide)) (.inl rfl) rfl
  · have hs3 : s3.toks = [⟨1, 7, .iter, some 0⟩, ⟨0, 0, .shared, none⟩] := by decide
    have := A.oneThread rfl ⟨1, 7, .iter, some 0⟩ ⟨0, 0, .shared, none⟩
      ⟨by rw [hs3]; simp, by rw [hs3]; simp⟩ ⟨by rw [hs3]; simp, by rw [hs3]; simp⟩
    cases this

/-- A non-trivial case: a component that is neither, an exclusive view on its own thread, two threads refused, a shared view of the
exclusive one and an iterator over it. -/
example : ∃ h s, Reach .nonSendSync 3 false false true h s ∧ s.toks.length = 3 ∧ ∀ x ∈ s.toks, x.thr = 3 := by
  let st (s : St) (a : Act) := (s.step .nonSendSync 3 false false a).getD St.init
  let s1 := st St.init (.borrowMut 3)
  let s2 := st s1 (.borrow 1)
  let s3 := st s2 (.reborrow 3 0)
  let s4 := st s3 (.iter 3 1)
  refine ⟨[.borrowMut 3, .borrow 1, .reborrow 3 0, .iter 3 1], s4, ?_, by decide, by decide⟩
  have r1 : Reach .nonSendSync 3 false false true [.borrowMut 3] s1 := .step .init (small_of (by decide)) (.inl rfl) rfl
  have r2 : Reach .nonSendSync 3 false false true [.borrowMut 3, .borrow 1] s2 := .step r1 (small_of (by decide)) (.inl rfl) rfl
  have r3 : Reach .nonSendSync 3 false false true [.borrowMut 3, .borrow 1, .reborrow 3 0] s3 :=
    .step r2 (small_of (by decide)) (.inl rfl) rfl
  exact .step r3 (small_of (by decide)) (.inl rfl) rfl

/-- A mutable iterator over a `Send` component may work on another thread; the view it borrows from is not usable meanwhile. -/
example : ∃ h s, Reach .nonSync 0 true false false h s ∧ s.toks.length = 2 ∧ ∃ x ∈ s.toks, x.kind = .iterMut ∧ x.thr = 9 := by
  let st (s : St) (a : Act) := (s.step .nonSync 0 true false a).getD St.init
  let s1 := st St.init (.borrowMut 5)
  let s2 := st s1 (.iterMut 5 0)
  let s3 := st s2 (.move 1 9)
  refine ⟨[.borrowMut 5, .iterMut 5 0, .move 1 9], s3, ?_, by decide, by decide⟩
  have r1 : Reach .nonSync 0 true false false [.borrowMut 5] s1 := .step .init (small_of (by decide)) (.inr rfl) rfl
  have r2 : Reach .nonSync 0 true false false [.borrowMut 5, .iterMut 5 0] s2 := .step r1 (small_of (by decide)) (.inr rfl) rfl
  exact .step r2 (small_of (by decide)) (.inr (by decide)) rfl

theorem stepTid_eq {tid : Nat → Nat} (hinj : ∀ a b, tid a = tid b → a = b) (m : Made) (home : Nat) (tSend tSync : Bool) (s : St)
    (a : Act) : s.stepTid tid m home tSend tSync a = s.step m home tSend tSync a := by
  have hne : ∀ t, tid home ≠ tid t ↔ home ≠ t := fun t => not_congr ⟨hinj _ _, fun h => by rw [h]⟩
  cases a with
  | borrow t =>
    have : borrowEv (m.send (tid home)) m.isSync (tid t) = borrowEv (m.send home) m.isSync t := by
      cases m <;> simp [Made.send, Made.isSync, borrowEv, hne]
    simp only [St.stepTid, St.step, this]
  | borrowMut t =>
    have : borrowMutEv (m.send (tid home)) (tid t) = borrowMutEv (m.send home) t := by
      cases m <;> simp [Made.send, borrowMutEv, hne]
    simp only [St.stepTid, St.step, this]
  | clone => rfl
  | reborrow => rfl
  | iter => rfl
  | iterMut => rfl
  | move => rfl
  | drop => rfl

/-- `C67_affinity_partial` and `C67_alone` for a world with its own function for thread ids that tells threads apart. -/
theorem C67_custom_ids_partial {tid : Nat → Nat} (hinj : ∀ a b, tid a = tid b → a = b) {m : Made} {home : Nat} {tSend tSync iters : Bool}
    (hm : m.allowed tSend tSync = true) {h : List Act} {s : St} (hr : ReachTid tid m home tSend tSync iters h s)
    (hi : tSync = true ∨ tSend = false ∨ iters = false) : Affine home tSend tSync s ∧ Alone s := by
  have : Reach m home tSend tSync iters h s := by
    induction hr with
    | init => exact .init
    | step _ h2 h3 h4 ih => exact .step ih h2 h3 (by rw [← stepTid_eq hinj]; exact h4)
  exact ⟨C67_affinity_partial hm this hi, C67_alone hm this⟩

/-- With the function of the documentation's example, `|| 0`, which the type system accepts, a component that is neither `Send` nor
`Sync` is in the hands of two threads. -/
theorem C67_custom_ids_fails : ∃ h s, ReachTid (fun _ => 0) .nonSendSync 0 false false false h s ∧ ¬ Affine 0 false false s ∧
    ∃ x ∈ s.toks, ∃ y ∈ s.toks, x.thr ≠ y.thr := by
  let s1 := (St.init.stepTid (fun _ => 0) .nonSendSync 0 false false (.borrow 0)).getD St.init
  let s2 := (s1.stepTid (fun _ => 0) .nonSendSync 0 false false (.borrow 1)).getD St.init
  have hs2 : s2.toks = [⟨1, 1, .shared, none⟩, ⟨0, 0, .shared, none⟩] := by decide
  refine ⟨[.borrow 0, .borrow 1], s2, ?_, fun A => ?_, ⟨1, 1, .shared, none⟩, by rw [hs2]; simp, ⟨0, 0, .shared, none⟩, by rw [hs2]; simp,
    by decide⟩
  · have r1 : ReachTid (fun _ => 0) .nonSendSync 0 false false false [.borrow 0] s1 := .step .init (small_of (by decide)) (.inr rfl) rfl
    exact .step r1 (small_of (by decide)) (.inr rfl) rfl
  · have := A.home rfl rfl ⟨1, 1, .shared, none⟩ ⟨by rw [hs2]; simp, by rw [hs2]; simp⟩
    cases this

/-- Ids that tell threads apart: a thread that did not make the storage is still refused. -/
example : ∃ h s, ReachTid (fun t => 2 * t + 7) .nonSendSync 3 false false true h s ∧ s.toks.length = 1 ∧ ∀ x ∈ s.toks, x.thr = 3 := by
  let st (s : St) (a : Act) := (s.stepTid (fun t => 2 * t + 7) .nonSendSync 3 false false a).getD St.init
  let s1 := st St.init (.borrow 3)
  let s2 := st s1 (.borrow 1)
  refine ⟨[.borrow 3, .borrow 1], s2, ?_, by decide, by decide⟩
  have r1 : ReachTid (fun t => 2 * t + 7) .nonSendSync 3 false false true [.borrow 3] s1 := .step .init (small_of (by decide)) (.inl rfl) rfl
  exact .step r1 (small_of (by decide)) (.inl rfl) rfl

end Verif.Threads
