import Verif.Lemmas.ParallelRun

/-! Conditions with views of their own: as if their system had these views too. -/
namespace Verif.Sched

variable {V ε : Type} {progOf : Nat → Prog (Nat → V) ε} {own : WSys (Nat → V) ε → List TypeInfo} {w : Workload (Nat → V) ε}

/-- The system with the views of its condition. Conditions run on the thread that runs the workload. -/
def widen (own : WSys (Nat → V) ε → List TypeInfo) (s : WSys (Nat → V) ε) : WSys (Nat → V) ε :=
  { s with borrows := s.borrows ++ (own s).map fun b => { b with threadSafe := true } }

def widenAll (own : WSys (Nat → V) ε → List TypeInfo) (w : Workload (Nat → V) ε) : Workload (Nat → V) ε :=
  { w with systems := w.systems.map (widen own) }

theorem Overlap.symm {a b : TypeInfo} (h : Overlap a b) : Overlap b a := by
  cases h with
  | share h1 h2 => exact .share h1.symm h2.symm
  | allLeft h => exact .allRight h
  | allRight h => exact .allLeft h

theorem clash_safe_left {a b : TypeInfo} (h : Clash { a with threadSafe := true } b) : Overlap a b := by
  cases h with
  | share h1 h2 => exact .share h1 h2
  | thread h1 _ => cases h1
  | allLeft h => exact .allLeft h
  | allRight h => exact .allRight h

theorem clash_safe_right {a b : TypeInfo} (h : Clash a { b with threadSafe := true }) : Overlap a b := by
  cases h with
  | share h1 h2 => exact .share h1 h2
  | thread _ h2 => cases h2
  | allLeft h => exact .allLeft h
  | allRight h => exact .allRight h

theorem widen_conflicts (hd : DisciplinedOwn progOf own w) {a b : Nat} {s s' : WSys (Nat → V) ε} (hne : a ≠ b) (hs : w.systems[a]? = some s)
    (hs' : w.systems[b]? = some s') (h : Conflicts (widen own s) (widen own s')) : Conflicts s s' := by
  refine Classical.byContradiction fun hno => ?_
  have hno' : ¬ Conflicts s' s := by
    rintro ⟨x, hx, y, hy, hc⟩
    refine hno ⟨y, hy, x, hx, ?_⟩
    cases hc with
    | share h1 h2 => exact .share h1.symm h2.symm
    | thread h1 h2 => exact .thread h2 h1
    | allLeft h => exact .allRight h
    | allRight h => exact .allLeft h
  obtain ⟨x, hx, y, hy, hc⟩ := h
  rcases List.mem_append.mp hx with hx | hx <;> rcases List.mem_append.mp hy with hy | hy
  · exact hno ⟨x, hx, y, hy, hc⟩
  · obtain ⟨y, hy', rfl⟩ := List.mem_map.mp hy
    exact (hd.apart hne.symm hs' hs hno' y hy').1 x hx (clash_safe_right hc).symm
  · obtain ⟨x, hx', rfl⟩ := List.mem_map.mp hx
    exact (hd.apart hne hs hs' hno x hx').1 y hy (clash_safe_left hc)
  · obtain ⟨x, hx', rfl⟩ := List.mem_map.mp hx
    obtain ⟨y, hy', rfl⟩ := List.mem_map.mp hy
    exact (hd.apart hne hs hs' hno x hx').2 y hy' (by
      cases clash_safe_left hc with
      | share h1 h2 => exact .share h1 h2
      | allLeft h => exact .allLeft h
      | allRight h => exact .allRight h)

theorem widen_get {i : Nat} {y : WSys (Nat → V) ε} (h : (widenAll own w).systems[i]? = some y) :
    ∃ x, w.systems[i]? = some x ∧ y = widen own x := by
  unfold widenAll at h
  dsimp only at h
  rw [List.getElem?_map] at h
  cases hx : w.systems[i]? with
  | none => rw [hx] at h; cases h
  | some x => rw [hx] at h; cases h; exact ⟨x, rfl, rfl⟩

theorem widen_schedule (hd : DisciplinedOwn progOf own w) {plan} (h : Schedule w plan) : Schedule (widenAll own w) plan := by
  refine ⟨?_, h.batches, ?_, ?_, ?_⟩
  · show (plan.map (·.1)).Perm (List.range (w.systems.map _).length)
    rw [List.length_map]
    exact h.once
  · intro a b k x y hne ha hb hx hy hconf
    obtain ⟨s, hs, rfl⟩ := widen_get hx
    obtain ⟨t, ht, rfl⟩ := widen_get hy
    exact h.apart hne ha hb hs ht (widen_conflicts hd hne hs ht hconf)
  · intro a b he
    refine h.explicit ?_
    cases he with
    | beforeAll h1 h2 h3 h4 h5 =>
      obtain ⟨s, hs, rfl⟩ := widen_get h1
      obtain ⟨t, ht, rfl⟩ := widen_get h2
      exact .beforeAll hs ht h3 h4 h5
    | afterAll h1 h2 h3 h4 h5 =>
      obtain ⟨s, hs, rfl⟩ := widen_get h1
      obtain ⟨t, ht, rfl⟩ := widen_get h2
      exact .afterAll hs ht h3 h4 h5
    | barrier h1 h2 h3 h4 =>
      refine .barrier h1 h2 h3 ?_
      have : b < (w.systems.map (widen own)).length := h4
      rwa [List.length_map] at this
  · intro a b he
    obtain ⟨hab, x, y, hx, hy, h1, h2⟩ := he
    obtain ⟨s, hs, rfl⟩ := widen_get hx
    obtain ⟨t, ht, rfl⟩ := widen_get hy
    exact h.implicit ⟨hab, s, t, hs, ht, h1, h2⟩

theorem widen_at {α : Type} (val : Nat → α) (i : Nat) :
    (widenAll own w).at (fun s => val s.typeId) i = w.at (fun s => val s.typeId) i := by
  unfold Workload.at widenAll
  dsimp only
  rw [List.getElem?_map]
  cases w.systems[i]? <;> rfl

theorem widen_realises (hd : DisciplinedOwn progOf own w) {α : Type} {b : Batches (Nat → V) ε} {table : List α} {val : Nat → α} {plan}
    (h : Realises table (fun s => val s.typeId) b w plan) :
    Realises table (fun s => val s.typeId) b (widenAll own w) plan := by
  refine ⟨widen_schedule hd h.schedule, h.cond, ?_, h.bound, h.lens, ?_, h.fit⟩
  · rw [h.seq]
    exact List.map_congr_left fun p _ => (widen_at val p.1).symm
  · intro k hk
    obtain ⟨jobs, h1, h2⟩ := h.par k hk
    exact ⟨jobs, h1, h2.trans (List.Perm.of_eq (List.map_congr_left fun p _ => (widen_at val p.1).symm))⟩

theorem widen_inOrder (plan : List (Nat × Nat)) : (widenAll own w).inOrder plan = w.inOrder plan := by
  unfold Workload.inOrder
  apply filterMap_congr
  intro p _
  unfold Workload.namedJob Workload.at widenAll
  dsimp only
  rw [List.getElem?_map]
  cases w.systems[p.1]? <;> rfl

/-- `cs` has all views of `bs`. -/
def More (bs cs : List TypeInfo) : Prop := ∀ b ∈ bs, ∃ c ∈ cs, c.storage = b.storage ∧ c.exclusive = b.exclusive

section
variable {bs cs : List TypeInfo} (h : More bs cs)
include h

theorem More.reads {s : Nat} (hr : Reads bs s) : Reads cs s := by
  obtain ⟨b, hb, h1⟩ := hr
  obtain ⟨c, hc, e, _⟩ := h b hb
  exact ⟨c, hc, by rw [e]; exact h1⟩

theorem More.writes {s : Nat} (hr : Writes bs s) : Writes cs s := by
  obtain ⟨b, hb, h1, h2⟩ := hr
  obtain ⟨c, hc, e1, e2⟩ := h b hb
  exact ⟨c, hc, by rw [e2]; exact h1, by rw [e1]; exact h2⟩

theorem More.agree {w w' : Nat → V} (ha : Agree cs w w') : Agree bs w w' := fun s hs => ha s (h.reads hs)

/-- What is local to `bs` is local to `cs`. -/
theorem More.keep {u : (Nat → V) → (Nat → V)} (hf : ∀ w s, ¬ Writes bs s → u w s = w s)
    (hu : ∀ w w', Agree bs w w' → Agree bs (u w) (u w')) (w w' : Nat → V) (ha : Agree cs w w') : Agree cs (u w) (u w') := by
  intro s hs
  by_cases hw : Writes bs s
  · obtain ⟨b, hb, _, e⟩ := hw
    exact hu w w' (h.agree ha) s ⟨b, hb, e⟩
  · rw [hf w s hw, hf w' s hw]
    exact ha s hs

theorem More.within {p : Prog (Nat → V) ε} (hp : p.Within bs) : p.Within cs := by
  induction hp with
  | done r => exact .done r
  | act hf hu hk _ ih =>
    exact .act (fun w s hs => hf w s fun hw => hs (h.writes hw)) (h.keep hf hu) (fun w w' ha => hk w w' (h.agree ha)) ih

theorem More.cond {c : Option (Cond (Nat → V) ε)} (hc : CondWithin bs c) : CondWithin cs c :=
  ⟨fun w s hs => hc.frame w s fun hw => hs (h.writes hw), fun w w' ha => hc.out w w' (h.agree ha), h.keep hc.frame hc.agree⟩

end

theorem widen_writes {s : WSys (Nat → V) ε} {x : Nat} (h : Writes (widen own s).borrows x) : Writes s.borrows x ∨ Writes (own s) x := by
  obtain ⟨b, hb, h1, h2⟩ := h
  rcases List.mem_append.mp hb with hb | hb
  · exact .inl ⟨b, hb, h1, h2⟩
  · obtain ⟨b', hb', rfl⟩ := List.mem_map.mp hb
    exact .inr ⟨b', hb', h1, h2⟩

theorem widen_disciplined (hd : DisciplinedOwn progOf own w) : Disciplined progOf (widenAll own w) := by
  refine ⟨?_, ?_, ?_⟩ <;> intro s hs' <;> obtain ⟨s, hs, rfl⟩ := List.mem_map.mp hs'
  · exact hd.fn s hs
  · exact More.within (fun b hb => ⟨b, List.mem_append_left _ hb, rfl, rfl⟩) (hd.within s hs)
  · exact More.cond (fun b hb => ⟨{ b with threadSafe := true }, List.mem_append_right _ (List.mem_map.mpr ⟨b, hb, rfl⟩), rfl, rfl⟩) (hd.cond s hs)

end Verif.Sched
