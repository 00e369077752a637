import Verif.Spec.Threads
import Verif.Lemmas.Borrow

/-!
# Invariant of the tokens of a cell
-/
namespace Verif.Threads
open Verif.Borrow

def isK (k : Kind) (x : Tok) : Bool := x.kind == k

structure TInv (m : Made) (home : Nat) (tSend tSync iters : Bool) (s : St) : Prop where
  cell : Inv s.cell
  nodup : (s.toks.map Tok.id).Nodup
  lt : ∀ x ∈ s.toks, x.id < s.next
  sharedN : s.cell.shared = s.toks.countP (isK .shared)
  rebN : s.cell.reborrowed = s.toks.countP (isK .reborrow)
  excN : s.cell.exclusive = s.toks.countP (isK .exclusive)
  noParent : ∀ x ∈ s.toks, x.kind = .shared ∨ x.kind = .exclusive → x.parent = none
  reb : ∀ x ∈ s.toks, x.kind = .reborrow ∨ x.kind = .iterMut → ∃ y ∈ s.toks, x.parent = some y.id ∧ y.kind = .exclusive
  iter : ∀ x ∈ s.toks, x.kind = .iter → ∃ y ∈ s.toks, x.parent = some y.id ∧ (y.kind = .shared ∨ y.kind = .reborrow ∨ y.kind = .exclusive)
  sole : ∀ x ∈ s.toks, x.kind = .iterMut → ∀ y ∈ s.toks, y = x ∨ y.kind = .exclusive
  one : tSync = false → (tSend = false ∨ iters = false) → (∀ z ∈ s.toks, z.kind ≠ .iterMut) → ∀ x ∈ s.toks, ∀ y ∈ s.toks, x.thr = y.thr
  changes : tSend = false → ∀ x ∈ s.toks, x.kind = .exclusive ∨ x.kind = .iterMut → x.thr = home
  atHome : tSend = false → tSync = false → ∀ x ∈ s.toks, x.thr = home
  made : m = .nonSendSync → tSync = false → ∀ x ∈ s.toks, x.kind = .shared → x.thr = home

theorem countP_one {α} {p : α → Bool} {l : List α} (h : l.countP p ≤ 1) {x y : α} (hx : x ∈ l) (hy : y ∈ l) (px : p x = true)
    (py : p y = true) : x = y := by
  induction l with
  | nil => cases hx
  | cons a l ih =>
    rw [List.countP_cons] at h
    have h0 : l.countP p ≤ 1 := by omega
    rcases List.mem_cons.mp hx with e | hx'
    · rcases List.mem_cons.mp hy with e' | hy'
      · rw [e, e']
      · rw [← e, if_pos px] at h
        have := List.countP_pos_iff.mpr ⟨y, hy', py⟩
        omega
    · rcases List.mem_cons.mp hy with e' | hy'
      · rw [← e', if_pos py] at h
        have := List.countP_pos_iff.mpr ⟨x, hx', px⟩
        omega
      · exact ih h0 hx' hy'

theorem isK_iff {k : Kind} {x : Tok} : isK k x = true ↔ x.kind = k := by simp [isK]

theorem countP_zero {l : List Tok} {k : Kind} (h : l.countP (isK k) = 0) : ∀ x ∈ l, x.kind ≠ k := by
  intro x hx hk
  have := List.countP_pos_iff.mpr ⟨x, hx, isK_iff.mpr hk⟩
  omega

variable {m : Made} {home : Nat} {tSend tSync iters : Bool} {s : St}

theorem TInv.excl (I : TInv m home tSend tSync iters s) : s.cell.exclusive ≤ 1 := by
  rcases I.cell.mode with h | h <;> omega

/-- The exclusive guard is unique, and there is no shared one beside it. -/
theorem TInv.same (I : TInv m home tSend tSync iters s) {x y : Tok} (hx : x ∈ s.toks) (hy : y ∈ s.toks) (kx : x.kind = .exclusive)
    (ky : y.kind = .exclusive) : x = y :=
  countP_one (I.excN ▸ I.excl) hx hy (isK_iff.mpr kx) (isK_iff.mpr ky)

theorem TInv.noShared (I : TInv m home tSend tSync iters s) {x y : Tok} (hx : x ∈ s.toks) (hy : y ∈ s.toks) (kx : x.kind = .exclusive) :
    y.kind ≠ .shared := by
  intro ky
  have h1 := List.countP_pos_iff.mpr ⟨x, hx, isK_iff.mpr kx⟩
  have h2 := List.countP_pos_iff.mpr ⟨y, hy, isK_iff.mpr ky⟩
  have := I.excN; have := I.sharedN
  rcases I.cell.mode with h | h <;> omega

theorem TInv.empty (I : TInv m home tSend tSync iters s) (hg : s.cell.guards = 0) : s.toks = [] := by
  unfold Cell.guards at hg
  have h1 := countP_zero (k := .shared) (l := s.toks) (by have := I.sharedN; omega)
  have h2 := countP_zero (k := .reborrow) (l := s.toks) (by have := I.rebN; omega)
  have h3 := countP_zero (k := .exclusive) (l := s.toks) (by have := I.excN; omega)
  apply List.eq_nil_iff_forall_not_mem.mpr
  intro x hx
  cases hk : x.kind with
  | shared => exact h1 x hx hk
  | reborrow => exact h2 x hx hk
  | exclusive => exact h3 x hx hk
  | iterMut => obtain ⟨y, hy, _, ky⟩ := I.reb x hx (.inr hk); exact h3 y hy ky
  | iter =>
    obtain ⟨y, hy, _, ky⟩ := I.iter x hx hk
    rcases ky with ky | ky | ky
    · exact h1 y hy ky
    · exact h2 y hy ky
    · exact h3 y hy ky

/-- No exclusive guard: only shared guards and iterators that borrow from them. -/
theorem TInv.noExcl (I : TInv m home tSend tSync iters s) (he : s.cell.exclusive = 0) {x : Tok} (hx : x ∈ s.toks) :
    x.kind = .shared ∨ x.kind = .iter ∧ ∃ y ∈ s.toks, x.parent = some y.id ∧ y.kind = .shared := by
  have h3 := countP_zero (k := .exclusive) (l := s.toks) (by have := I.excN; omega)
  have h2 : ∀ y ∈ s.toks, y.kind ≠ .reborrow := fun y hy ky => by
    obtain ⟨z, hz, _, kz⟩ := I.reb y hy (.inl ky)
    exact h3 z hz kz
  cases hk : x.kind with
  | shared => exact .inl rfl
  | reborrow => exact absurd hk (h2 x hx)
  | exclusive => exact absurd hk (h3 x hx)
  | iterMut => obtain ⟨y, hy, _, ky⟩ := I.reb x hx (.inr hk); exact absurd ky (h3 y hy)
  | iter =>
    obtain ⟨y, hy, hp, ky⟩ := I.iter x hx hk
    rcases ky with ky | ky | ky
    · exact .inr ⟨rfl, y, hy, hp, ky⟩
    · exact absurd ky (h2 y hy)
    · exact absurd ky (h3 y hy)

theorem kids_nil {s : St} {id : Nat} (h : (s.kids id).isEmpty = true) : ∀ y ∈ s.toks, y.parent ≠ some id := by
  intro y hy hp
  have : y ∈ s.kids id := by
    unfold St.kids
    rw [List.mem_filter]
    exact ⟨hy, by simp [hp]⟩
  rw [List.isEmpty_iff.mp h] at this
  cases this

/-- An exclusive guard nothing borrows from is the only token. -/
theorem TInv.aloneTok (I : TInv m home tSend tSync iters s) {x : Tok} (hx : x ∈ s.toks) (kx : x.kind = .exclusive)
    (hk : ∀ y ∈ s.toks, y.parent ≠ some x.id) : ∀ y ∈ s.toks, y = x := by
  have hr : ∀ y ∈ s.toks, ¬(y.kind = .reborrow ∨ y.kind = .iterMut) := fun y hy ky => by
    obtain ⟨z, hz, hp, kz⟩ := I.reb y hy ky
    exact hk y hy (by rw [hp, I.same hz hx kz kx])
  intro y hy
  cases hk' : y.kind with
  | shared => exact absurd hk' (I.noShared hx hy kx)
  | exclusive => exact I.same hy hx hk' kx
  | reborrow => exact absurd (.inl hk') (hr y hy)
  | iterMut => exact absurd (.inr hk') (hr y hy)
  | iter =>
    obtain ⟨z, hz, hp, kz⟩ := I.iter y hy hk'
    rcases kz with kz | kz | kz
    · exact absurd kz (I.noShared hx hz kx)
    · exact absurd (.inl kz) (hr z hz)
    · exact absurd (by rw [hp, I.same hz hx kz kx]) (hk y hy)

theorem find_mem {s : St} {id : Nat} {x : Tok} (h : s.find id = some x) : x ∈ s.toks ∧ x.id = id :=
  ⟨List.mem_of_find?_eq_some h, by simpa using List.find?_some h⟩

theorem TInv.byId (I : TInv m home tSend tSync iters s) {x y : Tok} (hx : x ∈ s.toks) (hy : y ∈ s.toks) (h : x.id = y.id) : x = y := by
  have hn := I.nodup
  clear I
  revert hx hy hn
  generalize s.toks = l
  intro hx hy hn
  induction l with
  | nil => cases hx
  | cons a l ih =>
    rw [List.map_cons, List.nodup_cons] at hn
    rcases List.mem_cons.mp hx with e | hx'
    · rcases List.mem_cons.mp hy with e' | hy'
      · rw [e, e']
      · exact absurd ((by rw [← e, h] : a.id = y.id) ▸ List.mem_map_of_mem hy') hn.1
    · rcases List.mem_cons.mp hy with e' | hy'
      · exact absurd ((by rw [← e', h] : a.id = x.id) ▸ List.mem_map_of_mem hx') hn.1
      · exact ih hx' hy' hn.2

theorem mem_del {s : St} {id : Nat} {y : Tok} : y ∈ s.del id ↔ y ∈ s.toks ∧ y.id ≠ id := by
  unfold St.del
  rw [List.mem_filter]
  simp

/-- Deleting the one token with a number takes one from its kind's count. -/
theorem count_del {l : List Tok} (hn : (l.map Tok.id).Nodup) {x : Tok} (hx : x ∈ l) (p : Tok → Bool) :
    l.countP p = (l.filter fun y => !(y.id == x.id)).countP p + if p x then 1 else 0 := by
  induction l with
  | nil => cases hx
  | cons a l ih =>
    rw [List.map_cons, List.nodup_cons] at hn
    by_cases ha : a.id = x.id
    · have hax : a = x := by
        rcases List.mem_cons.mp hx with rfl | hx
        · rfl
        · exact absurd (ha ▸ List.mem_map_of_mem hx) hn.1
      subst hax
      rw [List.filter_cons_of_neg (by simp)]
      have : (l.filter fun y => !(y.id == a.id)) = l := by
        rw [List.filter_eq_self]
        intro y hy
        have : y.id ≠ a.id := fun e => hn.1 (e ▸ List.mem_map_of_mem hy)
        simpa using this
      rw [this, List.countP_cons]
    · rw [List.filter_cons_of_pos (by simpa using ha), List.countP_cons, List.countP_cons]
      rcases List.mem_cons.mp hx with rfl | hx
      · exact absurd rfl ha
      · rw [ih hn.2 hx]
        omega

theorem nodup_del {l : List Tok} (hn : (l.map Tok.id).Nodup) (q : Tok → Bool) : ((l.filter q).map Tok.id).Nodup :=
  hn.sublist (List.filter_sublist.map _)

/-- The state after an operation that gave no guard. -/
theorem TInv.keep (I : TInv m home tSend tSync iters s) {c : Cell} (hc : Inv c) (h1 : c.shared = s.cell.shared)
    (h2 : c.reborrowed = s.cell.reborrowed) (h3 : c.exclusive = s.cell.exclusive) :
    TInv m home tSend tSync iters { s with cell := c } :=
  ⟨hc, I.nodup, I.lt, h1 ▸ I.sharedN, h2 ▸ I.rebN, h3 ▸ I.excN, I.noParent, I.reb, I.iter, I.sole, I.one, I.changes, I.atHome, I.made⟩

/-- The state with one token more. -/
theorem TInv.more (I : TInv m home tSend tSync iters s) {c : Cell} {thr : Nat} {k : Kind} {p : Option Nat} (hc : Inv c)
    (h1 : c.shared = s.cell.shared + if k = .shared then 1 else 0)
    (h2 : c.reborrowed = s.cell.reborrowed + if k = .reborrow then 1 else 0)
    (h3 : c.exclusive = s.cell.exclusive + if k = .exclusive then 1 else 0)
    (hnp : k = .shared ∨ k = .exclusive → p = none)
    (hreb : k = .reborrow ∨ k = .iterMut → ∃ y ∈ s.toks, p = some y.id ∧ y.kind = .exclusive)
    (hit : k = .iter → ∃ y ∈ s.toks, p = some y.id ∧ (y.kind = .shared ∨ y.kind = .reborrow ∨ y.kind = .exclusive))
    (hno : ∀ x ∈ s.toks, x.kind ≠ .iterMut)
    (hmut : k = .iterMut → ∀ y ∈ s.toks, y.kind = .exclusive)
    (hone : k ≠ .iterMut → tSync = false → (tSend = false ∨ iters = false) → ∀ y ∈ s.toks, y.thr = thr)
    (hch : tSend = false → k = .exclusive ∨ k = .iterMut → thr = home)
    (hhome : tSend = false → tSync = false → thr = home)
    (hmade : m = .nonSendSync → tSync = false → k = .shared → thr = home) :
    TInv m home tSend tSync iters { cell := c, toks := { id := s.next, thr, kind := k, parent := p } :: s.toks, next := s.next + 1 } where
  cell := hc
  nodup := by
    rw [List.map_cons, List.nodup_cons]
    refine ⟨fun h => ?_, I.nodup⟩
    obtain ⟨y, hy, e⟩ := List.mem_map.mp h
    have := I.lt y hy
    have e' : y.id = s.next := e
    omega
  lt := by
    intro x hx
    rcases List.mem_cons.mp hx with rfl | hx
    · exact Nat.lt_succ_self _
    · exact Nat.lt_succ_of_lt (I.lt x hx)
  sharedN := by
    rw [List.countP_cons, ← I.sharedN]
    simpa [isK] using h1
  rebN := by
    rw [List.countP_cons, ← I.rebN]
    simpa [isK] using h2
  excN := by
    rw [List.countP_cons, ← I.excN]
    simpa [isK] using h3
  noParent := by
    intro x hx hk
    rcases List.mem_cons.mp hx with rfl | hx
    · exact hnp hk
    · exact I.noParent x hx hk
  reb := by
    intro x hx hk
    rcases List.mem_cons.mp hx with rfl | hx
    · obtain ⟨y, hy, h⟩ := hreb hk
      exact ⟨y, List.mem_cons_of_mem _ hy, h⟩
    · obtain ⟨y, hy, h⟩ := I.reb x hx hk
      exact ⟨y, List.mem_cons_of_mem _ hy, h⟩
  iter := by
    intro x hx hk
    rcases List.mem_cons.mp hx with rfl | hx
    · obtain ⟨y, hy, h⟩ := hit hk
      exact ⟨y, List.mem_cons_of_mem _ hy, h⟩
    · obtain ⟨y, hy, h⟩ := I.iter x hx hk
      exact ⟨y, List.mem_cons_of_mem _ hy, h⟩
  sole := by
    intro x hx hk y hy
    rcases List.mem_cons.mp hx with rfl | hx
    · rcases List.mem_cons.mp hy with rfl | hy
      · exact .inl rfl
      · exact .inr (hmut hk y hy)
    · exact absurd hk (hno x hx)
  one := by
    intro hs hi hz x hx y hy
    have hk : k ≠ .iterMut := hz _ (List.mem_cons_self ..)
    have h0 := hone hk hs hi
    have : ∀ z ∈ ({ id := s.next, thr, kind := k, parent := p } :: s.toks : List Tok), z.thr = thr := by
      intro z hz'
      rcases List.mem_cons.mp hz' with rfl | hz'
      · rfl
      · exact h0 z hz'
    rw [this x hx, this y hy]
  changes := by
    intro hs x hx hk
    rcases List.mem_cons.mp hx with rfl | hx
    · exact hch hs hk
    · exact I.changes hs x hx hk
  atHome := by
    intro hs hs' x hx
    rcases List.mem_cons.mp hx with rfl | hx
    · exact hhome hs hs'
    · exact I.atHome hs hs' x hx
  made := by
    intro hm hs x hx hk
    rcases List.mem_cons.mp hx with rfl | hx
    · exact hmade hm hs hk
    · exact I.made hm hs x hx hk

/-- The state with one token less. -/
theorem TInv.less (I : TInv m home tSend tSync iters s) {c : Cell} {x : Tok} (hx : x ∈ s.toks) (hk : ∀ y ∈ s.toks, y.parent ≠ some x.id)
    (hc : Inv c) (h1 : s.cell.shared = c.shared + if x.kind = .shared then 1 else 0)
    (h2 : s.cell.reborrowed = c.reborrowed + if x.kind = .reborrow then 1 else 0)
    (h3 : s.cell.exclusive = c.exclusive + if x.kind = .exclusive then 1 else 0) :
    TInv m home tSend tSync iters { s with cell := c, toks := s.del x.id } where
  cell := hc
  nodup := nodup_del I.nodup _
  lt := fun y hy => I.lt y (mem_del.mp hy).1
  sharedN := by
    have := count_del I.nodup hx (isK .shared)
    rw [← I.sharedN, h1] at this
    simp only [isK_iff] at this
    show c.shared = (s.toks.filter fun y => !(y.id == x.id)).countP _
    omega
  rebN := by
    have := count_del I.nodup hx (isK .reborrow)
    rw [← I.rebN, h2] at this
    simp only [isK_iff] at this
    show c.reborrowed = (s.toks.filter fun y => !(y.id == x.id)).countP _
    omega
  excN := by
    have := count_del I.nodup hx (isK .exclusive)
    rw [← I.excN, h3] at this
    simp only [isK_iff] at this
    show c.exclusive = (s.toks.filter fun y => !(y.id == x.id)).countP _
    omega
  noParent := fun y hy => I.noParent y (mem_del.mp hy).1
  reb := by
    intro y hy hky
    obtain ⟨z, hz, hp, kz⟩ := I.reb y (mem_del.mp hy).1 hky
    exact ⟨z, mem_del.mpr ⟨hz, fun e => hk y (mem_del.mp hy).1 (e ▸ hp)⟩, hp, kz⟩
  iter := by
    intro y hy hky
    obtain ⟨z, hz, hp, kz⟩ := I.iter y (mem_del.mp hy).1 hky
    exact ⟨z, mem_del.mpr ⟨hz, fun e => hk y (mem_del.mp hy).1 (e ▸ hp)⟩, hp, kz⟩
  sole := fun y hy hky z hz => I.sole y (mem_del.mp hy).1 hky z (mem_del.mp hz).1
  one := by
    intro hs hi hz y hy y' hy'
    by_cases hm : ∃ z ∈ s.toks, z.kind = .iterMut
    · obtain ⟨z, hz', kz⟩ := hm
      have hzx : z = x := by
        by_cases e : z.id = x.id
        · exact I.byId hz' hx e
        · exact absurd kz (hz z (mem_del.mpr ⟨hz', e⟩))
      subst hzx
      have hE : ∀ w ∈ s.del z.id, w.kind = .exclusive := fun w hw =>
        (I.sole z hz' kz w (mem_del.mp hw).1).resolve_left fun e => (mem_del.mp hw).2 (e ▸ rfl)
      rw [I.same (mem_del.mp hy).1 (mem_del.mp hy').1 (hE y hy) (hE y' hy')]
    · exact I.one hs hi (fun z hz' kz => hm ⟨z, hz', kz⟩) y (mem_del.mp hy).1 y' (mem_del.mp hy').1
  changes := fun hs y hy => I.changes hs y (mem_del.mp hy).1
  atHome := fun hs hs' y hy => I.atHome hs hs' y (mem_del.mp hy).1
  made := fun hm hs y hy => I.made hm hs y (mem_del.mp hy).1

theorem record_cases (c : Cell) (r : Nat × Got) (f : Cell → Cell) :
    (c.record r f = (f { c with word := r.1 }, .guard) ∧ r.2 = .guard)
    ∨ ((c.record r f).2 ≠ .guard ∧ r.2 ≠ .guard ∧ (c.record r f).1.shared = c.shared ∧ (c.record r f).1.reborrowed = c.reborrowed
      ∧ (c.record r f).1.exclusive = c.exclusive) := by
  obtain ⟨w, g⟩ := r
  cases g with
  | guard => exact .inl ⟨rfl, rfl⟩
  | error => exact .inr ⟨by simp [Cell.record], by simp, rfl, rfl, rfl⟩
  | undo => exact .inr ⟨by simp [Cell.record], by simp, rfl, rfl, rfl⟩
  | abort => exact .inr ⟨by simp [Cell.record], by simp, rfl, rfl, rfl⟩

/-- Does the event ask for a guard, and of which kind? -/
def opens : Ev → Option Kind
  | .read | .exclusiveRead | .clone => some .shared
  | .write => some .exclusive
  | .reborrow | .cloneReborrow => some .reborrow
  | _ => none

/-- What an event that asks for a guard does to the counts. -/
def Counts (c : Cell) (k : Kind) (r : Cell × Got) : Prop :=
    (r.2 = .guard ∧ r.1.shared = c.shared + (if k = .shared then 1 else 0)
      ∧ r.1.reborrowed = c.reborrowed + (if k = .reborrow then 1 else 0) ∧ r.1.exclusive = c.exclusive + (if k = .exclusive then 1 else 0))
    ∨ (r.2 ≠ .guard ∧ r.1.shared = c.shared ∧ r.1.reborrowed = c.reborrowed ∧ r.1.exclusive = c.exclusive)

theorem step_opens {c : Cell} {e : Ev} {k : Kind} (ho : opens e = some k) {r : Cell × Got} (hr : c.step e = some r) : Counts c k r := by
  have key : ∀ (q : Nat × Got) (f : Cell → Cell), c.record q f = r →
      (∀ c : Cell, (f c).shared = c.shared + (if k = .shared then 1 else 0)) →
      (∀ c : Cell, (f c).reborrowed = c.reborrowed + (if k = .reborrow then 1 else 0)) →
      (∀ c : Cell, (f c).exclusive = c.exclusive + (if k = .exclusive then 1 else 0)) → Counts c k r := by
    intro q f hq f1 f2 f3
    rcases record_cases c q f with ⟨h, _⟩ | ⟨h1, _, h2, h3, h4⟩
    · rw [hq] at h
      subst h
      exact .inl ⟨rfl, f1 _, f2 _, f3 _⟩
    · rw [hq] at h1 h2 h3 h4
      exact .inr ⟨h1, h2, h3, h4⟩
  cases e <;> simp only [opens, Option.some.injEq, reduceCtorEq] at ho <;> subst ho <;> simp only [Cell.step] at hr
  · exact key _ _ (Option.some.inj hr) (fun _ => rfl) (fun _ => rfl) (fun _ => rfl)
  · exact key _ _ (Option.some.inj hr) (fun _ => rfl) (fun _ => rfl) (fun _ => rfl)
  · exact key _ _ (Option.some.inj hr) (fun _ => rfl) (fun _ => rfl) (fun _ => rfl)
  · split at hr
    · cases hr
    · exact key _ _ (Option.some.inj hr) (fun _ => rfl) (fun _ => rfl) (fun _ => rfl)
  · split at hr
    · cases hr
    · exact key _ _ (Option.some.inj hr) (fun _ => rfl) (fun _ => rfl) (fun _ => rfl)
  · split at hr
    · cases hr
    · exact key _ _ (Option.some.inj hr) (fun _ => rfl) (fun _ => rfl) (fun _ => rfl)

/-- An event that asks for a guard, then a token for the guard. -/
theorem TInv.opened (I : TInv m home tSend tSync iters s) (hsm : Small s.cell) {e : Ev} {thr : Nat} {k : Kind} {p : Option Nat}
    (ho : opens e = some k) {s' : St} (h : (s.cell.step e).map (fun r => s.add r thr k p) = some s')
    (H : (∃ c', s.cell.step e = some (c', .guard)) →
      (k = .shared ∨ k = .exclusive → p = none)
      ∧ (k = .reborrow → ∃ y ∈ s.toks, p = some y.id ∧ y.kind = .exclusive)
      ∧ (∀ x ∈ s.toks, x.kind ≠ .iterMut)
      ∧ (tSync = false → (tSend = false ∨ iters = false) → ∀ y ∈ s.toks, y.thr = thr)
      ∧ (tSend = false → k = .exclusive → thr = home)
      ∧ (tSend = false → tSync = false → thr = home)
      ∧ (m = .nonSendSync → tSync = false → k = .shared → thr = home)) : TInv m home tSend tSync iters s' := by
  rcases hr : s.cell.step e with _ | ⟨c', g⟩
  · rw [hr] at h; cases h
  rw [hr] at h
  have h := Option.some.inj h
  subst h
  have hI := I.cell.step hsm hr
  have hkk : k ≠ .iterMut ∧ k ≠ .iter := by
    cases e <;> simp only [opens, Option.some.injEq, reduceCtorEq] at ho <;> subst ho <;> exact ⟨by decide, by decide⟩
  rcases step_opens ho hr with ⟨hg, a1, a2, a3⟩ | ⟨hg, a1, a2, a3⟩
  · have hg : g = .guard := hg
    subst hg
    obtain ⟨b1, b2, b3, b4, b5, b6, b7⟩ := H ⟨c', hr⟩
    exact I.more hI a1 a2 a3 b1 (fun hk => b2 (hk.resolve_right hkk.1)) (fun hk => absurd hk hkk.2) b3 (fun hk => absurd hk hkk.1)
      (fun _ => b4) (fun hs hk => b5 hs (hk.resolve_right hkk.1)) b6 b7
  · have : s.add (c', g) thr k p = { s with cell := c' } := by
      unfold St.add
      cases g with
      | guard => exact absurd rfl hg
      | _ => rfl
    show TInv m home tSend tSync iters (s.add (c', g) thr k p)
    rw [this]
    exact I.keep hI a1 a2 a3

theorem read_guard {c c' : Cell} (h : Inv c) (hs : Small c) (hr : c.step .read = some (c', .guard)) : c.exclusive = 0 := by
  by_cases he : c.exclusive = 0
  · exact he
  · rcases step_read_held h hs he with ⟨h', _⟩ | h' <;> rw [h'] at hr <;> cases hr

theorem exclusiveRead_guard {c c' : Cell} (h : Inv c) (hr : c.step .exclusiveRead = some (c', .guard)) : c.guards = 0 := by
  by_cases hg : c.guards = 0
  · exact hg
  · rw [step_exclusiveRead_held h hg] at hr; cases hr

theorem write_guard {c c' : Cell} (h : Inv c) (hr : c.step .write = some (c', .guard)) : c.guards = 0 := by
  by_cases hg : c.guards = 0
  · exact hg
  · rw [step_write_held h hg] at hr; cases hr

theorem any_iterMut {s : St} {id : Nat} (h : (s.kids id).any (·.kind == .iterMut) = false) :
    ∀ y ∈ s.toks, y.kind = .iterMut → y.parent ≠ some id := by
  intro y hy hk hp
  rw [List.any_eq_false] at h
  refine h y ?_ (by simp [hk])
  unfold St.kids
  rw [List.mem_filter]
  exact ⟨hy, by simp [hp]⟩

/-- A token from which no mutable iterator borrows, and that is no mutable iterator: there is no mutable iterator. -/
theorem TInv.noMut (I : TInv m home tSend tSync iters s) {x : Tok} (hx : x ∈ s.toks) (kx : x.kind ≠ .iterMut)
    (h : ∀ y ∈ s.toks, y.kind = .iterMut → y.parent ≠ some x.id) : ∀ z ∈ s.toks, z.kind ≠ .iterMut := by
  intro z hz kz
  obtain ⟨y, hy, hp, ky⟩ := I.reb z hz (.inr kz)
  rcases I.sole z hz kz x hx with rfl | ke
  · exact kx kz
  · rw [I.same hy hx ky ke] at hp
    exact h z hz kz hp

/-- What dropping a guard does to the counts. -/
theorem step_drops {c : Cell} {k : Kind} {e : Ev} (hd : k.dropEv = some e) {c' : Cell} {g : Got} (hr : c.step e = some (c', g)) :
    c.shared = c'.shared + (if k = .shared then 1 else 0) ∧ c.reborrowed = c'.reborrowed + (if k = .reborrow then 1 else 0)
      ∧ c.exclusive = c'.exclusive + (if k = .exclusive then 1 else 0) := by
  cases k with
  | iter => cases hd
  | iterMut => cases hd
  | shared =>
    have hd : Ev.dropShared = e := Option.some.inj hd
    subst hd
    simp only [Cell.step] at hr
    generalize Borrow.dropShared c.word = w at hr
    split at hr
    · cases hr
    · next h0 =>
      simp only [Option.some.injEq, Prod.mk.injEq] at hr
      obtain ⟨rfl, _⟩ := hr
      refine ⟨?_, rfl, rfl⟩
      show c.shared = c.shared - 1 + 1
      omega
  | reborrow =>
    have hd : Ev.dropReborrow = e := Option.some.inj hd
    subst hd
    simp only [Cell.step] at hr
    generalize Borrow.dropShared c.word = w at hr
    split at hr
    · cases hr
    · next h0 =>
      simp only [Option.some.injEq, Prod.mk.injEq] at hr
      obtain ⟨rfl, _⟩ := hr
      refine ⟨rfl, ?_, rfl⟩
      show c.reborrowed = c.reborrowed - 1 + 1
      omega
  | exclusive =>
    have hd : Ev.dropExclusive = e := Option.some.inj hd
    subst hd
    simp only [Cell.step] at hr
    split at hr
    · cases hr
    · next h0 =>
      simp only [Option.some.injEq, Prod.mk.injEq] at hr
      obtain ⟨rfl, _⟩ := hr
      refine ⟨rfl, rfl, ?_⟩
      show c.exclusive = c.exclusive - 1 + 1
      omega

theorem TInv.step (hm : m.allowed tSend tSync = true) (I : TInv m home tSend tSync iters s) (hsm : Small s.cell) {a : Act}
    (ha : iters = true ∨ a.sendsIter s = false) {s' : St} (h : s.step m home tSend tSync a = some s') :
    TInv m home tSend tSync iters s' := by
  cases a with
  | borrow thr =>
    simp only [St.step] at h
    rcases he : borrowEv (m.send home) m.isSync thr with _ | e
    · rw [he] at h; cases h; exact I
    rw [he] at h
    cases m with
    | new =>
      simp only [Made.isSync, borrowEv, Option.some.injEq] at he
      subst he
      have ht : tSend = true ∧ tSync = true := by simpa [Made.allowed] using hm
      obtain ⟨rfl, rfl⟩ := ht
      refine I.opened hsm (k := .shared) rfl h fun ⟨c', hg⟩ => ⟨fun _ => rfl, nofun, ?_, nofun, nofun, nofun, nofun⟩
      intro x hx kx
      rcases I.noExcl (read_guard I.cell hsm hg) hx with h1 | ⟨h1, _⟩ <;> rw [kx] at h1 <;> cases h1
    | nonSend =>
      simp only [Made.isSync, borrowEv, Option.some.injEq] at he
      subst he
      have ht : tSync = true := by simpa [Made.allowed] using hm
      subst ht
      refine I.opened hsm (k := .shared) rfl h fun ⟨c', hg⟩ => ⟨fun _ => rfl, nofun, ?_, nofun, nofun, nofun, nofun⟩
      intro x hx kx
      rcases I.noExcl (read_guard I.cell hsm hg) hx with h1 | ⟨h1, _⟩ <;> rw [kx] at h1 <;> cases h1
    | nonSync =>
      simp only [Made.isSync, Made.send, borrowEv, Option.some.injEq] at he
      subst he
      have ht : tSend = true := by simpa [Made.allowed] using hm
      subst ht
      refine I.opened hsm (k := .shared) rfl h fun ⟨c', hg⟩ => ?_
      have he := I.empty (exclusiveRead_guard I.cell hg)
      rw [he]
      exact ⟨fun _ => rfl, nofun, nofun, (fun _ _ _ h => nomatch h), nofun, nofun, nofun⟩
    | nonSendSync =>
      simp only [Made.isSync, Made.send, borrowEv] at he
      by_cases ht : home = thr
      · subst ht
        simp only [ne_eq, not_true_eq_false, if_false, Option.some.injEq] at he
        subst he
        refine I.opened hsm (k := .shared) rfl h fun ⟨c', hg⟩ =>
          ⟨fun _ => rfl, nofun, ?_, ?_, fun _ _ => rfl, fun _ _ => rfl, fun _ _ _ => rfl⟩
        · intro x hx kx
          rcases I.noExcl (read_guard I.cell hsm hg) hx with h1 | ⟨h1, _⟩ <;> rw [kx] at h1 <;> cases h1
        · intro hs hi y hy
          have hn : ∀ z ∈ s.toks, z.kind ≠ .iterMut := fun x hx kx => by
            rcases I.noExcl (read_guard I.cell hsm hg) hx with h1 | ⟨h1, _⟩ <;> rw [kx] at h1 <;> cases h1
          rcases I.noExcl (read_guard I.cell hsm hg) hy with h1 | ⟨_, z, hz, _, kz⟩
          · exact I.made rfl hs y hy h1
          · rw [I.one hs hi hn y hy z hz]
            exact I.made rfl hs z hz kz
      · simp only [ne_eq, ht, not_false_eq_true, if_true] at he
        cases he
  | borrowMut thr =>
    simp only [St.step] at h
    rcases he : borrowMutEv (m.send home) thr with _ | e
    · rw [he] at h; cases h; exact I
    rw [he] at h
    have hw : e = .write ∧ (tSend = false → thr = home) := by
      cases m with
      | new =>
        simp only [Made.send, borrowMutEv, Option.some.injEq] at he
        have ht : tSend = true ∧ tSync = true := by simpa [Made.allowed] using hm
        exact ⟨he.symm, by rw [ht.1]; nofun⟩
      | nonSync =>
        simp only [Made.send, borrowMutEv, Option.some.injEq] at he
        have ht : tSend = true := by simpa [Made.allowed] using hm
        exact ⟨he.symm, by rw [ht]; nofun⟩
      | nonSend =>
        simp only [Made.send, borrowMutEv] at he
        split at he
        · cases he
        · next hne => exact ⟨(Option.some.inj he).symm, fun _ => (Decidable.not_not.mp hne).symm⟩
      | nonSendSync =>
        simp only [Made.send, borrowMutEv] at he
        split at he
        · cases he
        · next hne => exact ⟨(Option.some.inj he).symm, fun _ => (Decidable.not_not.mp hne).symm⟩
    obtain ⟨rfl, ht⟩ := hw
    refine I.opened hsm (k := .exclusive) rfl h fun ⟨c', hg⟩ => ?_
    rw [I.empty (write_guard I.cell hg)]
    exact ⟨fun _ => rfl, nofun, nofun, (fun _ _ _ h => nomatch h), fun hs _ => ht hs, fun hs _ => ht hs, nofun⟩
  | clone thr id =>
    simp only [St.step] at h
    rcases hf : s.find id with _ | x
    · rw [hf] at h; cases h
    rw [hf] at h
    obtain ⟨hx, rfl⟩ := find_mem hf
    simp only at h
    split at h
    · cases h
    next hseen =>
    have hseen : x.thr = thr ∨ tSync = true := by
      rw [Bool.not_eq_true, Bool.not_eq_false'] at hseen
      simpa [Tok.seenBy] using hseen
    have hthr : tSync = false → x.thr = thr := fun hs => hseen.resolve_right (by rw [hs]; decide)
    split at h
    · next kx =>
      have hn : ∀ z ∈ s.toks, z.kind ≠ .iterMut := fun z hz kz => by
        obtain ⟨y, hy, _, ky⟩ := I.reb z hz (.inr kz)
        exact I.noShared hy hx ky kx
      refine I.opened hsm (k := .shared) rfl h fun _ => ⟨fun _ => rfl, nofun, hn, ?_, nofun, ?_, ?_⟩
      · intro hs hi y hy
        rw [I.one hs hi hn y hy x hx, hthr hs]
      · intro hs hs'
        rw [← hthr hs', I.atHome hs hs' x hx]
      · intro hm' hs _
        rw [← hthr hs, I.made hm' hs x hx kx]
    · next kx =>
      have hn : ∀ z ∈ s.toks, z.kind ≠ .iterMut := fun z hz kz => by
        rcases I.sole z hz kz x hx with rfl | ke
        · rw [kz] at kx; cases kx
        · rw [ke] at kx; cases kx
      refine I.opened hsm (k := .reborrow) rfl h fun _ => ⟨nofun, fun _ => I.reb x hx (.inl kx), hn, ?_, nofun, ?_, nofun⟩
      · intro hs hi y hy
        rw [I.one hs hi hn y hy x hx, hthr hs]
      · intro hs hs'
        rw [← hthr hs', I.atHome hs hs' x hx]
    · cases h
  | reborrow thr id =>
    simp only [St.step] at h
    rcases hf : s.find id with _ | x
    · rw [hf] at h; cases h
    rw [hf] at h
    obtain ⟨hx, rfl⟩ := find_mem hf
    simp only at h
    split at h
    · cases h
    next hseen =>
    rw [Bool.or_eq_true_iff, not_or, Bool.not_eq_true, Bool.not_eq_true] at hseen
    have hthr : tSync = false → x.thr = thr := fun hs => by
      have := hseen.1
      simpa [Tok.seenBy, hs] using this
    split at h
    · next kx =>
      have hn := I.noMut hx (by rw [kx]; decide) (any_iterMut hseen.2)
      refine I.opened hsm (k := .reborrow) rfl h fun _ => ⟨nofun, fun _ => ⟨x, hx, rfl, kx⟩, hn, ?_, nofun, ?_, nofun⟩
      · intro hs hi y hy
        rw [I.one hs hi hn y hy x hx, hthr hs]
      · intro hs hs'
        rw [← hthr hs', I.atHome hs hs' x hx]
    · cases h
  | iter thr id =>
    simp only [St.step] at h
    rcases hf : s.find id with _ | x
    · rw [hf] at h; cases h
    rw [hf] at h
    obtain ⟨hx, rfl⟩ := find_mem hf
    simp only at h
    split at h
    · cases h
    next hseen =>
    rw [Bool.or_eq_true_iff, not_or, Bool.not_eq_true, Bool.not_eq_true] at hseen
    have hthr : tSync = false → x.thr = thr := fun hs => by
      have := hseen.1
      simpa [Tok.seenBy, hs] using this
    have go : (x.kind = .shared ∨ x.kind = .reborrow ∨ x.kind = .exclusive) → some (s.add (s.cell, .guard) thr .iter (some x.id)) = some s' →
        TInv m home tSend tSync iters s' := by
      intro kx h
      have h := Option.some.inj h
      subst h
      have hn := I.noMut hx (by rcases kx with kx | kx | kx <;> rw [kx] <;> decide) (any_iterMut hseen.2)
      refine I.more I.cell rfl rfl rfl (by simp) (by simp) (fun _ => ⟨x, hx, rfl, kx⟩) hn nofun ?_ (by simp) ?_ nofun
      · intro _ hs hi y hy
        rw [I.one hs hi hn y hy x hx, hthr hs]
      · intro hs hs'
        rw [← hthr hs', I.atHome hs hs' x hx]
    split at h
    · next kx => exact go (.inl kx) h
    · next kx => exact go (.inr (.inl kx)) h
    · next kx => exact go (.inr (.inr kx)) h
    · cases h
  | iterMut thr id =>
    simp only [St.step] at h
    rcases hf : s.find id with _ | x
    · rw [hf] at h; cases h
    rw [hf] at h
    obtain ⟨hx, rfl⟩ := find_mem hf
    simp only at h
    split at h
    · cases h
    next hseen =>
    rw [Bool.or_eq_true_iff, not_or, Bool.not_eq_true, Bool.not_eq_true, Bool.not_eq_false', Bool.not_eq_false'] at hseen
    have hthr : x.thr = thr := by simpa using hseen.1
    have hk := kids_nil hseen.2
    split at h
    · next kx =>
      have h := Option.some.inj h
      subst h
      have hal := I.aloneTok hx kx hk
      have hn : ∀ z ∈ s.toks, z.kind ≠ .iterMut := fun z hz kz => by
        rw [hal z hz, kx] at kz; cases kz
      refine I.more I.cell rfl rfl rfl (by simp) (fun _ => ⟨x, hx, rfl, kx⟩) nofun hn (fun _ y hy => by rw [hal y hy, kx]) (fun h => absurd rfl h)
        ?_ ?_ nofun
      · intro hs _
        rw [← hthr, I.changes hs x hx (.inl kx)]
      · intro hs _
        rw [← hthr, I.changes hs x hx (.inl kx)]
    · cases h
  | move id thr =>
    simp only [St.step] at h
    rcases hf : s.find id with _ | x
    · rw [hf] at h; cases h
    rw [hf] at h
    obtain ⟨hx, rfl⟩ := find_mem hf
    simp only at h
    split at h
    · cases h
    next hseen =>
    rw [Bool.or_eq_true_iff, not_or, Bool.not_eq_true, Bool.not_eq_true, Bool.not_eq_false', Bool.not_eq_false'] at hseen
    obtain ⟨hmov, hkids⟩ := hseen
    have hk := kids_nil hkids
    have h := Option.some.inj h
    subst h
    have hmem : ∀ y ∈ ({ x with thr := thr } :: s.del x.id : List Tok), y = { x with thr := thr } ∨ (y ∈ s.toks ∧ y.id ≠ x.id) := by
      intro y hy
      rcases List.mem_cons.mp hy with rfl | hy
      · exact .inl rfl
      · exact .inr (mem_del.mp hy)
    have hback : ∀ y ∈ s.toks, ∃ y' ∈ ({ x with thr := thr } :: s.del x.id : List Tok), y'.id = y.id ∧ y'.kind = y.kind := by
      intro y hy
      by_cases e : y.id = x.id
      · have := I.byId hy hx e
        subst this
        exact ⟨_, List.mem_cons_self .., rfl, rfl⟩
      · exact ⟨y, List.mem_cons_of_mem _ (mem_del.mpr ⟨hy, e⟩), rfl, rfl⟩
    have hcount : ∀ k, s.toks.countP (isK k) = ({ x with thr := thr } :: s.del x.id : List Tok).countP (isK k) := by
      intro k
      rw [List.countP_cons]
      exact count_del I.nodup hx (isK k)
    refine ⟨I.cell, ?_, ?_, (hcount _) ▸ I.sharedN, (hcount _) ▸ I.rebN, (hcount _) ▸ I.excN, ?_, ?_, ?_, ?_, ?_, ?_, ?_, ?_⟩
    · rw [List.map_cons, List.nodup_cons]
      refine ⟨fun h => ?_, nodup_del I.nodup _⟩
      obtain ⟨y, hy, e⟩ := List.mem_map.mp h
      exact (mem_del.mp hy).2 e
    · intro y hy
      rcases hmem y hy with rfl | ⟨hy, _⟩
      · exact I.lt x hx
      · exact I.lt y hy
    · intro y hy hky
      rcases hmem y hy with rfl | ⟨hy, _⟩
      · exact I.noParent x hx hky
      · exact I.noParent y hy hky
    · intro y hy hky
      rcases hmem y hy with rfl | ⟨hy, _⟩
      · obtain ⟨z, hz, hp, kz⟩ := I.reb x hx hky
        obtain ⟨z', hz', e1, e2⟩ := hback z hz
        exact ⟨z', hz', e1 ▸ hp, e2 ▸ kz⟩
      · obtain ⟨z, hz, hp, kz⟩ := I.reb y hy hky
        obtain ⟨z', hz', e1, e2⟩ := hback z hz
        exact ⟨z', hz', e1 ▸ hp, e2 ▸ kz⟩
    · intro y hy hky
      rcases hmem y hy with rfl | ⟨hy, _⟩
      · obtain ⟨z, hz, hp, kz⟩ := I.iter x hx hky
        obtain ⟨z', hz', e1, e2⟩ := hback z hz
        exact ⟨z', hz', e1 ▸ hp, e2 ▸ kz⟩
      · obtain ⟨z, hz, hp, kz⟩ := I.iter y hy hky
        obtain ⟨z', hz', e1, e2⟩ := hback z hz
        exact ⟨z', hz', e1 ▸ hp, e2 ▸ kz⟩
    · intro y hy hky z hz
      rcases hmem y hy with rfl | ⟨hy, hne⟩
      · rcases hmem z hz with rfl | ⟨hz, hne'⟩
        · exact .inl rfl
        · exact .inr ((I.sole x hx hky z hz).resolve_left fun e => hne' (e ▸ rfl))
      · rcases hmem z hz with rfl | ⟨hz, hne'⟩
        · exact .inr ((I.sole y hy hky x hx).resolve_left fun e => hne (e ▸ rfl))
        · exact I.sole y hy hky z hz
    · intro hs hi hz y hy y' hy'
      have hxm : x.kind ≠ .iterMut := hz { x with thr := thr } (List.mem_cons_self ..)
      have hxe : x.kind = .exclusive := by
        cases kx : x.kind with
        | exclusive => rfl
        | shared => rw [kx, hs] at hmov; cases hmov
        | reborrow => rw [kx, hs] at hmov; cases hmov
        | iterMut => exact absurd kx hxm
        | iter =>
          rcases hi with hi | hi
          · rw [kx, hi] at hmov; cases hmov
          · rcases ha with ha | ha
            · rw [hi] at ha; cases ha
            · simp [Act.sendsIter, hf, kx] at ha
      have hal := I.aloneTok hx hxe hk
      have : ∀ z ∈ ({ x with thr := thr } :: s.del x.id : List Tok), z.thr = thr := by
        intro z hz
        rcases hmem z hz with rfl | ⟨hz, hne⟩
        · rfl
        · exact absurd (by rw [hal z hz]) hne
      rw [this y hy, this y' hy']
    · intro hs y hy hky
      rcases hmem y hy with rfl | ⟨hy, _⟩
      · rcases hky with hky | hky <;> rw [show x.kind = _ from hky, hs] at hmov <;> cases hmov
      · exact I.changes hs y hy hky
    · intro hs hs' y hy
      rcases hmem y hy with rfl | ⟨hy, _⟩
      · cases kx : x.kind <;> rw [kx, hs, hs'] at hmov <;> cases hmov
      · exact I.atHome hs hs' y hy
    · intro hm' hs y hy hky
      rcases hmem y hy with rfl | ⟨hy, _⟩
      · rw [show x.kind = _ from hky, hs] at hmov; cases hmov
      · exact I.made hm' hs y hy hky
  | drop id =>
    simp only [St.step] at h
    rcases hf : s.find id with _ | x
    · rw [hf] at h; cases h
    rw [hf] at h
    obtain ⟨hx, rfl⟩ := find_mem hf
    simp only at h
    split at h
    · cases h
    next hkids =>
    have hk := kids_nil (by simpa using hkids)
    rcases hd : x.kind.dropEv with _ | e
    · rw [hd] at h
      have h := Option.some.inj h
      subst h
      have hxk : x.kind = .iter ∨ x.kind = .iterMut := by
        cases kx : x.kind <;> rw [kx] at hd <;> first | (cases hd; done) | simp
      refine I.less (c := s.cell) hx hk I.cell ?_ ?_ ?_ <;> rcases hxk with hxk | hxk <;> rw [hxk] <;> rfl
    · rw [hd] at h
      simp only at h
      rcases hr : s.cell.step e with _ | ⟨c', g⟩
      · rw [hr] at h; cases h
      rw [hr] at h
      have h := Option.some.inj h
      subst h
      have hI := I.cell.step hsm hr
      have hc := step_drops hd hr
      exact I.less hx hk hI hc.1 hc.2.1 hc.2.2

theorem Reach.inv (hm : m.allowed tSend tSync = true) {h : List Act} (hr : Reach m home tSend tSync iters h s) :
    TInv m home tSend tSync iters s := by
  induction hr with
  | init => exact ⟨Inv.new, List.nodup_nil, nofun, rfl, rfl, rfl, nofun, nofun, nofun, nofun, nofun, nofun, nofun, nofun⟩
  | step _ hs ha hc ih => exact ih.step hm hs ha hc

end Verif.Threads
