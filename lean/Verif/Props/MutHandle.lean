import Verif.Spec.MutHandle
import Verif.Props.SparseSet
import Verif.Props.Track

/-!
# C96: handles to components
-/
namespace Verif.MutHandle
open SparseSet StoSpec Tracking

/-- The value a program leaves through a handle is the one it leaves through a plain reference, and the timestamp is set to the
handle's time exactly if the program takes a mutable reference through it. -/
theorem C96_run {U : Type} (u : Use U) (h : Handle U) :
    (u.run h).2 = u.leaves h.data ∧
    (u.Writes h.data → (u.run h).1 = h.flag.map fun _ => h.current) ∧
    (¬ u.Writes h.data → (u.run h).1 = h.flag) := by
  induction u with
  | drop => exact ⟨rfl, (fun w => by cases w), fun _ => rfl⟩
  | deref k ih =>
    obtain ⟨h1, h2, h3⟩ := ih h.data h
    exact ⟨h1, (fun w => by cases w with | deref w => exact h2 w), fun w => h3 fun q => w (.deref q)⟩
  | asRef k ih =>
    obtain ⟨h1, h2, h3⟩ := ih h.data h
    exact ⟨h1, (fun w => by cases w with | asRef w => exact h2 w), fun w => h3 fun q => w (.asRef q)⟩
  | derefMut f k ih =>
    obtain ⟨h1, h2, h3⟩ := ih (h.derefMut f)
    refine ⟨h1, fun _ => ?_, fun w => absurd .derefMut w⟩
    by_cases w : k.Writes (h.derefMut f).data
    · refine (h2 w).trans ?_
      simp [Handle.derefMut, Function.comp_def]
    · exact h3 w
  | asMut f k ih =>
    obtain ⟨h1, h2, h3⟩ := ih (h.asMut f)
    refine ⟨h1, fun _ => ?_, fun w => absurd .asMut w⟩
    by_cases w : k.Writes (h.asMut f).data
    · refine (h2 w).trans ?_
      simp [Handle.asMut, Function.comp_def]
    · exact h3 w
  | map f get put k ih =>
    obtain ⟨h1, h2, h3⟩ := ih (h.map f get)
    refine ⟨?_, (fun w => by cases w with | map w => exact h2 w), fun w => h3 fun q => w (.map q)⟩
    show put (k.run (h.map f get)).2 (f h.data) = _
    rw [h1]
    rfl

/-- A program that neither takes a mutable reference nor changes anything inside `map` leaves the value as it was. -/
theorem C96_untouched {U : Type} (u : Use U) (x : U) (hp : u.Parts) (h : ¬ u.Touches x) : u.leaves x = x := by
  induction u with
  | drop => rfl
  | deref k ih => exact ih x x (hp x) fun q => h (.deref q)
  | asRef k ih => exact ih x x (hp x) fun q => h (.asRef q)
  | derefMut f k ih => exact absurd .derefMut h
  | asMut f k ih => exact absurd .asMut h
  | map f get put k ih =>
    have hf : f x = x := Classical.byContradiction fun q => h (.mapped q)
    show put (k.leaves (get (f x))) (f x) = x
    rw [ih (get (f x)) hp.2 fun q => h (.map q), hf]
    exact hp.1 x

/-- The stamp of a cell after the program. -/
noncomputable def stampAfter {T : Type} (u : Use T) (v : T) (now old : Nat) : Nat :=
  open Classical in if u.Writes v then now else old

/-- Using a handle is a write under the time that is then found in the timestamp. -/
theorem useMut_eq {T : Type} {s : SparseSet T} {sp : SparseArray} {L : List (Cell T)} (h : SOK sp L) {e : EId} (he : e.gen < 65535)
    (now : Nat) (u : Use T) :
    ((∀ c ∈ L, ¬ (c.id.idx = e.idx ∧ c.gen = e.gen)) ∧ (build s sp L).useMut e now u = .ok (false, build s sp L)) ∨
    (∃ (i : Nat) (c : Cell T), L[i]? = some c ∧ c.id.idx = e.idx ∧ c.gen = e.gen ∧
      (build s sp L).useMut e now u = (build s sp L).modify e (stampAfter u c.val now c.mod) (fun _ => u.leaves c.val)) := by
  unfold SparseSet.useMut SparseSet.modify
  rcases indexOf_ok (s := s) h e he with ⟨h1, h2⟩ | ⟨i, c, hi, hce, hcg, h2⟩
  · exact .inl ⟨h1, by simp only [h2, bind, Except.bind]⟩
  · refine .inr ⟨i, c, hi, hce, hcg, ?_⟩
    simp only [h2, bind, Except.bind, build_trkMod, build_data]
    rw [vecGetU_map (fun x => x.val) hi]
    simp only [modData]
    by_cases ht : s.trkMod = true
    case neg =>
      obtain ⟨r1, r2, r3⟩ := C96_run u { flag := none, current := now, data := c.val }
      have rf : (u.run { flag := none, current := now, data := c.val }).1 = none := by
        by_cases w : u.Writes c.val
        · exact r2 w
        · exact r3 w
      simp only [ht, if_false, setUIf, rf, r1, Bool.false_eq_true]
    case pos =>
      obtain ⟨r1, r2, r3⟩ := C96_run u { flag := some c.mod, current := now, data := c.val }
      have rf : (u.run { flag := some c.mod, current := now, data := c.val }).1 = some (stampAfter u c.val now c.mod) := by
        unfold stampAfter
        by_cases w : u.Writes c.val
        · rw [r2 w, if_pos w]; rfl
        · rw [r3 w, if_neg w]
      simp only [ht, if_true, setUIf, vecGetU_map (fun x : Cell T => x.mod) hi, Except.map, rf, r1]

/-- C96 for the storage. A handle to the component of an entity is refused exactly when it has none. Otherwise, whatever the program does
with the handle, the entity's component is then the value the program would leave through a plain reference; its timestamp of
modification is the time of the view if the program took a mutable reference through a handle, and the one from before if it did not;
the timestamp of insertion, everything about other entities, the order and the logs are as before. -/
theorem C96_storage {T : Type} {a b c d : Bool} {h : List (Event T)} {s : SparseSet T} (hr : Run (SparseSet.new a b c d) h s)
    {e : EId} (he : Valid e) (now : Nat) (u : Use T) :
    (s.observe e = .ok none → s.useMut e now u = .ok (false, s)) ∧
    (∀ v i m, s.observe e = .ok (some (v, i, m)) → ∃ s', s.useMut e now u = .ok (true, s') ∧
      (u.Writes v → s'.observe e = .ok (some (u.leaves v, i, if s.trkMod then some now else none)) ∧
        Step s (.wrote [(e, u.leaves v)] now) s') ∧
      (¬ u.Writes v → s'.observe e = .ok (some (u.leaves v, i, m))) ∧
      (∀ x, Valid x → x ≠ e → s'.observe x = s.observe x) ∧
      s' = { s with data := s'.data, modificationData := s'.modificationData }) := by
  obtain ⟨L, hL⟩ := run_abs hr
  have hob := hL.observe he.1
  have hsh := hL.shape
  rcases useMut_eq (s := s) hL.ok he.1 now u with ⟨h1, h2⟩ | ⟨k, cl, hk, hki, hkg, h2⟩
  · rw [← hsh] at h2
    refine ⟨fun _ => h2, fun v i m hv => ?_⟩
    rw [hob] at hv
    have hv := Except.ok.inj hv
    unfold Sto.observe at hv
    rw [hL.rows] at hv
    cases hc : cellAt L e.idx with
    | none => rw [hc] at hv; cases hv
    | some cl =>
      rw [hc] at hv
      rw [cellAt_some hL.ok] at hc
      have hv : (if cl.gen = e.gen then _ else none) = some (v, i, m) := hv
      rw [if_neg fun q => h1 cl hc.1 ⟨hc.2, q⟩] at hv
      cases hv
  · have hrow : (after (Sto.init a b c d) h).rows e.idx = some cl.toRow := by
      rw [hL.rows, (cellAt_some hL.ok).2 ⟨List.mem_of_getElem? hk, hki⟩]
      rfl
    have hobs : Sto.observe (after (Sto.init a b c d) h) e = some (cl.val, (if s.trkIns then some cl.ins else none),
        (if s.trkMod then some cl.mod else none)) := by
      unfold Sto.observe
      rw [hrow, hL.trkIns, hL.trkMod]
      show (if cl.gen = e.gen then _ else none) = _
      rw [if_pos hkg]
      rfl
    rw [hob, hobs]
    refine ⟨(fun q => by cases Except.ok.inj q), fun v i m hv => ?_⟩
    obtain ⟨rfl, rfl, rfl⟩ : cl.val = v ∧ (if s.trkIns then some cl.ins else none) = i ∧ (if s.trkMod then some cl.mod else none) = m := by
      have := Option.some.inj (Except.ok.inj hv)
      simp only [Prod.mk.injEq] at this
      exact this
    rw [← hsh] at h2
    obtain ⟨s', hm⟩ : ∃ s', s.modify e (stampAfter u cl.val now cl.mod) (fun _ => u.leaves cl.val) = .ok (true, s') := by
      rcases modify_ok (s := s) hL.ok he.1 (stampAfter u cl.val now cl.mod) (fun _ => u.leaves cl.val) with
        ⟨q, _⟩ | ⟨_, _, _, _, _, q, _⟩
      · exact absurd ⟨hki, hkg⟩ (q cl (List.mem_of_getElem? hk))
      · rw [← hsh] at q; exact ⟨_, q⟩
    have hstep : Step s (.wrote [(e, u.leaves cl.val)] (stampAfter u cl.val now cl.mod)) s' := .write he hm
    obtain ⟨L', hL'⟩ := run_abs (hr.snoc hstep)
    have hafter : after (Sto.init a b c d) (h ++ [.wrote [(e, u.leaves cl.val)] (stampAfter u cl.val now cl.mod)]) =
        { after (Sto.init a b c d) h with rows := (setRow (after (Sto.init a b c d) h).rows e.idx
            (some (StoSpec.writeRow (after (Sto.init a b c d) h).trkMod (stampAfter u cl.val now cl.mod) (u.leaves cl.val) cl.toRow))) } := by
      have : after (Sto.init a b c d) (h ++ [.wrote [(e, u.leaves cl.val)] (stampAfter u cl.val now cl.mod)]) =
          StoSpec.step (after (Sto.init a b c d) h) (.wrote [(e, u.leaves cl.val)] (stampAfter u cl.val now cl.mod)) := by
        unfold after
        rw [List.foldl_append]
        rfl
      rw [this]
      simp only [StoSpec.step, writeRows, hrow, Option.map]
    have hnew : s'.observe e = .ok (some (u.leaves cl.val, (if s.trkIns then some cl.ins else none),
        if s.trkMod then some (stampAfter u cl.val now cl.mod) else none)) := by
      rw [hL'.observe he.1, hafter]
      unfold Sto.observe
      simp only [setRow, if_pos, Option.bind]
      rw [if_pos (show (StoSpec.writeRow _ _ _ cl.toRow).gen = e.gen from hkg), ← hL.trkIns, ← hL.trkMod]
      unfold StoSpec.writeRow tracked
      cases s.trkMod <;> rfl
    refine ⟨s', h2.trans hm, fun w => ⟨?_, ?_⟩, fun w => ?_, fun x hx hxe => ?_, ?_⟩
    · rw [hnew]; unfold stampAfter; rw [if_pos w]
    · have := hstep; unfold stampAfter at this; rwa [if_pos w] at this
    · rw [hnew]; unfold stampAfter; rw [if_neg w]
    · rw [hL'.observe hx.1, hL.observe hx.1, hafter]
      unfold Sto.observe
      simp only [setRow]
      by_cases hxi : x.idx = e.idx
      · rw [if_pos hxi, hxi, hrow]
        have hg : e.gen ≠ x.gen := fun q => hxe (by cases x; cases e; cases hxi; cases q; rfl)
        simp only [Option.bind]
        rw [if_neg (show ¬ (StoSpec.writeRow _ _ _ cl.toRow).gen = x.gen from fun q => hg (hkg.symm.trans q)),
          if_neg (show ¬ cl.toRow.gen = x.gen from fun q => hg (hkg.symm.trans q))]
      · rw [if_neg hxi]
    · have hm := hm
      unfold SparseSet.modify at hm
      simp only [bind, Except.bind] at hm
      split at hm
      · cases hm
      split at hm
      · cases (Prod.mk.inj (Except.ok.inj hm)).1
      split at hm
      · cases hm
      split at hm
      · cases hm
      split at hm
      · cases hm
      rw [← (Prod.mk.inj (Except.ok.inj hm)).2]

/-- The flag for a timestamp that may be missing. -/
def ofStamp (o : Option Nat) (last current : Nat) : Res Bool :=
  match o with
  | some t => .ok (isWithin t last current)
  | none => .error .panic

/-- What `observe` shows is what the flags are computed from. -/
theorem flags_of_observe {T : Type} {v : View T} {e : EId} {x : T} {i m : Option Nat} (h : v.set.observe e = .ok (some (x, i, m))) :
    v.set.get e = .ok (some x) ∧
    v.isInserted e = ofStamp i v.lastInsertion v.current ∧
    v.isModified e = ofStamp m v.lastModification v.current := by
  unfold SparseSet.observe at h
  unfold SparseSet.get View.isInserted View.isModified View.flag ofStamp
  cases hi : v.set.indexOf e with
  | error f => rw [hi] at h; cases h
  | ok o =>
    cases o with
    | none => rw [hi] at h; cases Except.ok.inj h
    | some k =>
      simp only [hi, bind, Except.bind] at h ⊢
      split at h
      · cases h
      · rename_i y hy
        have h := Option.some.inj (Except.ok.inj h)
        simp only [Prod.mk.injEq] at h
        obtain ⟨rfl, rfl, rfl⟩ := h
        exact ⟨rfl, rfl, rfl⟩

/-- C96, as later views see it: a component is then reported as modified by a view exactly as before, unless the program took a mutable
reference; then it is reported exactly by the views whose window holds the time of the write. -/
theorem C96_reported {T : Type} {a b c d : Bool} {h : List (Event T)} {s s' : SparseSet T} (hr : Run (SparseSet.new a b c d) h s)
    (ht : s.trkMod = true) {e : EId} (he : Valid e) {now : Nat} {u : Use T} {v : T} (hv : s.get e = .ok (some v))
    (hu : s.useMut e now u = .ok (true, s')) (w : View T) :
    s'.get e = .ok (some (u.leaves v)) ∧
    (u.Writes v → ({ w with set := s' } : View T).isModified e = .ok (isWithin now w.lastModification w.current)) ∧
    (¬ u.Writes v → ({ w with set := s' } : View T).isModified e = ({ w with set := s } : View T).isModified e) ∧
    ({ w with set := s' } : View T).isInserted e = ({ w with set := s } : View T).isInserted e := by
  obtain ⟨c1, c2⟩ := C96_storage hr he now u
  obtain ⟨L, hL⟩ := run_abs hr
  cases ho : Sto.observe (after (Sto.init a b c d) h) e with
  | none =>
    have := c1 ((hL.observe he.1).trans (by rw [ho]))
    rw [this] at hu
    cases (Prod.mk.inj (Except.ok.inj hu)).1
  | some x =>
    obtain ⟨v', i, m⟩ := x
    have ho : s.observe e = .ok (some (v', i, m)) := (hL.observe he.1).trans (by rw [ho])
    obtain ⟨f1, f2, f3⟩ := flags_of_observe (v := { w with set := s }) ho
    obtain rfl : v' = v := by
      have := f1.symm.trans hv
      exact Option.some.inj (Except.ok.inj this)
    obtain ⟨s'', d1, d2, d3, _, _⟩ := c2 v' i m ho
    rw [d1] at hu
    obtain rfl : s'' = s' := (Prod.mk.inj (Except.ok.inj hu)).2
    by_cases hw : u.Writes v'
    · have g := (d2 hw).1
      rw [if_pos ht] at g
      obtain ⟨g1, g2, g3⟩ := flags_of_observe (v := { w with set := s'' }) g
      exact ⟨g1, fun _ => g3, fun q => absurd hw q, g2.trans f2.symm⟩
    · obtain ⟨g1, g2, g3⟩ := flags_of_observe (v := { w with set := s'' }) (d3 hw)
      exact ⟨g1, fun q => absurd q hw, fun _ => g3.trans f3.symm, g2.trans f2.symm⟩

/-- A program that looks at a pair, and, when its first part is small, writes the second part through `Mut::map`. -/
def bump : Use (Nat × Nat) := .deref fun x => if x.1 < 10 then .map id Prod.snd (fun y p => (p.1, y)) (.derefMut (· + 1) .drop) else .drop

/-- One that changes the pair inside the closure of `map`. -/
def sneaky : Use (Nat × Nat) := .map (fun p => (p.1 + 5, p.2)) Prod.snd (fun y p => (p.1, y)) .drop

example : bump.Writes (3, 4) ∧ ¬ bump.Writes (30, 4) ∧ bump.leaves (3, 4) = (3, 5) ∧ bump.leaves (30, 4) = (30, 4) ∧
    ¬ sneaky.Writes (3, 4) ∧ sneaky.Touches (3, 4) ∧ sneaky.leaves (3, 4) = (8, 4) := by
  refine ⟨.deref ?_, fun h => ?_, rfl, rfl, fun h => ?_, .mapped (by decide), rfl⟩
  · exact .map .derefMut
  · cases h with | deref h => cases h
  · cases h with | map h => cases h

/-- A storage of pairs, of which one was written at time 4. -/
example : ∃ (h : List (Event (Nat × Nat))) (s s' s'' : SparseSet (Nat × Nat)), Run (SparseSet.new false true false false) h s ∧
    s.trkMod = true ∧ s.get ⟨2, 0⟩ = .ok (some (3, 4)) ∧
    s.useMut ⟨2, 0⟩ 9 bump = .ok (true, s') ∧ s'.observe ⟨2, 0⟩ = .ok (some ((3, 5), none, some 9)) ∧
    s.useMut ⟨2, 0⟩ 9 sneaky = .ok (true, s'') ∧ s''.observe ⟨2, 0⟩ = .ok (some ((8, 4), none, some 0)) := by
  let s : SparseSet (Nat × Nat) := ((SparseSet.new false true false false).insert ⟨2, 0⟩ (3, 4) 4).toOption.get rfl |>.2
  have hr : Run (SparseSet.new false true false false) [.inserted ⟨2, 0⟩ (3, 4) 4 .inserted] s :=
    Run.snoc (h := []) .nil (.insert (by unfold Valid; decide) rfl)
  exact ⟨_, s, _, _, hr, rfl, rfl, rfl, rfl, rfl, rfl⟩

end Verif.MutHandle
