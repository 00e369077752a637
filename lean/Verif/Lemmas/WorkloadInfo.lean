import Verif.Lemmas.Created
import Verif.Spec.WorkloadInfo

/-! # The information `create_workload` returns describes the systems -/
namespace Verif.Sched

variable {W ε : Type}

open Relation (TransGen)

/-! ## Numbers of functions -/

theorem insertSystem_number (sch : Scheduler W ε) (s : WSys W ε) :
    (insertSystem sch s).1.number s.typeId = some (insertSystem sch s).2.index
    ∧ (∀ t n, sch.number t = some n → (insertSystem sch s).1.number t = some n)
    ∧ (insertSystem sch s).2.notes = { conflict := none, after := [], afterAll := [], beforeAll := [] } := by
  unfold insertSystem Scheduler.number
  cases hf : sch.lookup.find? (fun p => p.1 == s.typeId) with
  | some p =>
    refine ⟨?_, fun t n h => h, rfl⟩
    show (sch.lookup.find? _).map _ = _
    rw [hf]; rfl
  | none =>
    refine ⟨?_, ?_, rfl⟩
    · show ((sch.lookup ++ [(s.typeId, sch.systems.length)]).find? _).map _ = _
      rw [List.find?_append, hf]
      simp
    · intro t n h
      show ((sch.lookup ++ [(s.typeId, sch.systems.length)]).find? _).map _ = _
      rw [List.find?_append]
      cases hg : sch.lookup.find? (fun p => p.1 == t) with
      | none => rw [hg] at h; cases h
      | some p => rw [hg] at h; exact h

theorem insertSystems_number (ws : List (WSys W ε)) : ∀ (sch : Scheduler W ε),
    (∀ t n, sch.number t = some n → (insertSystems sch ws).1.number t = some n)
    ∧ ∀ (i : Nat) x s, (insertSystems sch ws).2[i]? = some x → ws[i]? = some s →
      (insertSystems sch ws).1.number s.typeId = some x.index
      ∧ x.notes = { conflict := none, after := [], afterAll := [], beforeAll := [] } := by
  induction ws with
  | nil => intro sch; exact ⟨fun t n h => h, fun i x s hx => by cases hx⟩
  | cons s rest ih =>
    intro sch
    obtain ⟨h1, h2⟩ := ih (insertSystem sch s).1
    obtain ⟨k1, k2, k3⟩ := insertSystem_number sch s
    refine ⟨fun t n h => h1 t n (k2 t n h), ?_⟩
    intro i x t hx ht
    cases i with
    | zero => cases hx; cases ht; exact ⟨h1 _ _ k1, k3⟩
    | succ i => exact h2 i x t hx ht

/-! ## Constraints -/

theorem mem_afterAllNotes {ss : List (Sys W ε)} {i : Nat} {labels : List Label} {q : Nat} {l : Label} :
    Constraint.mk q l ∈ afterAllNotes ss i labels ↔
      i ≠ q ∧ ∃ o, ss[q]? = some o ∧ (labels.find? fun l => decide (l ∈ o.tags)) = some l := by
  unfold afterAllNotes
  rw [List.mem_filterMap]
  constructor
  · rintro ⟨j, _, h⟩
    by_cases hij : i = j
    · rw [if_pos hij] at h; cases h
    · rw [if_neg hij] at h
      cases ho : ss[j]? with
      | none => rw [ho] at h; cases h
      | some o =>
        rw [ho] at h
        obtain ⟨l', hl, e⟩ := Option.map_eq_some_iff.mp h
        cases e
        exact ⟨hij, o, ho, hl⟩
  · rintro ⟨hij, o, ho, hl⟩
    refine ⟨q, List.mem_range.mpr (List.getElem?_eq_some_iff.mp ho).1, ?_⟩
    rw [if_neg hij, ho]
    simp only
    rw [hl]; rfl

theorem mem_beforeAllNotes {ss : List (Sys W ε)} {i : Nat} {labels : List Label} {n : Nat} {l : Label} :
    Constraint.mk n l ∈ beforeAllNotes ss i labels ↔
      ∃ q, i ≠ q ∧ ∃ o, ss[q]? = some o ∧ o.index = n ∧ (o.tags.find? fun l => decide (l ∈ labels)) = some l := by
  unfold beforeAllNotes
  rw [List.mem_filterMap]
  constructor
  · rintro ⟨j, _, h⟩
    by_cases hij : i = j
    · rw [if_pos hij] at h; cases h
    · rw [if_neg hij] at h
      cases ho : ss[j]? with
      | none => rw [ho] at h; cases h
      | some o =>
        rw [ho] at h
        obtain ⟨l', hl, e⟩ := Option.map_eq_some_iff.mp h
        cases e
        exact ⟨j, hij, o, ho, rfl, hl⟩
  · rintro ⟨q, hij, o, ho, rfl, hl⟩
    refine ⟨q, List.mem_range.mpr (List.getElem?_eq_some_iff.mp ho).1, ?_⟩
    rw [if_neg hij, ho]
    simp only
    rw [hl]; rfl

theorem afterAllNotes_sorted (ss : List (Sys W ε)) (i : Nat) (labels : List Label) :
    ((afterAllNotes ss i labels).map (·.otherSystem)).Pairwise (· < ·) := by
  unfold afterAllNotes
  rw [List.pairwise_map]
  refine List.Pairwise.filterMap _ ?_ List.pairwise_lt_range
  intro a a' haa b hb b' hb'
  have key : ∀ (a : Nat) (b : Constraint), (if i = a then none
      else match ss[a]? with
        | some o => (labels.find? fun l => decide (l ∈ o.tags)).map fun l => (⟨a, l⟩ : Constraint)
        | none => none) = some b → b.otherSystem = a := by
    intro a b h
    split at h
    · cases h
    · split at h
      · obtain ⟨l', hl, e⟩ := Option.map_eq_some_iff.mp h
        rw [← e]
      · cases h
  rw [key a b hb, key a' b' hb']
  exact haa

/-! ## Systems of the trace -/

/-- A placed system is a system of the workload, with its number and its notes. -/
theorem trace_sys {sch : Scheduler W ε} {w : Workload W ε} {ss : List (Sys W ε)} {o : Order W ε}
    (hg : Graph w (insertSystems sch w.systems).2 ss) (ho : Out ss o)
    (hn : Noted (insertSystems sch w.systems).2 ss) {b : Nat} {y : Sys W ε} (hy : (b, y) ∈ o.trace) :
    ∃ x s, (insertSystems sch w.systems).2[y.uid]? = some x ∧ w.systems[y.uid]? = some s ∧ Placed x s
      ∧ y.name = s.name ∧ y.borrows = s.borrows ∧ y.index = x.index
      ∧ (made sch w o).sch.number s.typeId = some y.index
      ∧ (∀ j, j ∈ y.notes.after ↔ Explicit w j y.uid ∨ Nearest w j y.uid)
      ∧ y.notes.afterAll = afterAllNotes (insertSystems sch w.systems).2 y.uid s.afterAll
      ∧ y.notes.beforeAll = beforeAllNotes (insertSystems sch w.systems).2 y.uid s.beforeAll
      ∧ y.notes.conflict = implicitConflict (insertSystems sch w.systems).2 y.uid x
      ∧ x.notes.conflict = none ∧ (made sch w o).inBatch y.uid b := by
  obtain ⟨j, hj⟩ := List.mem_iff_getElem?.mp hy
  have hsplit : o.trace = o.trace.take j ++ (b, y) :: o.trace.drop (j + 1) := by
    obtain ⟨hl, he⟩ := List.getElem?_eq_some_iff.mp hj
    conv => lhs; rw [← List.take_append_drop j o.trace]
    rw [List.drop_eq_getElem_cons hl, he]
  obtain ⟨z, hz, _, _⟩ := ho.trace _ _ _ hsplit
  have hz1 : ss[y.uid]? = some z := hz.1
  have hz2 : y = { z with softAfter := y.softAfter, hardAfter := y.hardAfter } := hz.2
  obtain ⟨x, s, hx, hs, hpl, hsame, hh, _⟩ := hg.sys _ z hz1
  obtain ⟨x', hx', hnotes⟩ := hn _ z hz1
  rw [hx] at hx'; cases hx'
  obtain ⟨hnum, hnil⟩ := (insertSystems_number w.systems sch).2 _ x s hx hs
  have e1 : y.notes = z.notes := by rw [hz2]
  have e2 : y.index = x.index := by rw [hz2]; exact hsame.index
  refine ⟨x, s, hx, hs, hpl, ?_, ?_, e2, ?_, ?_, ?_, ?_, ?_, ?_, ?_⟩
  · rw [hz2]; exact hsame.name.trans hpl.name
  · rw [hz2]; exact hsame.borrows.trans hpl.borrows
  · rw [e2]; exact hnum
  · intro k
    rw [e1, hnotes]
    exact hh k
  · rw [e1, hnotes, ← hpl.afterAll]; rfl
  · rw [e1, hnotes, ← hpl.beforeAll]; rfl
  · rw [e1, hnotes]; rfl
  · rw [hnil]
  · exact List.mem_map.mpr ⟨(b, y), hy, rfl⟩

/-- A conflict found by `check_conflict` with a system of an earlier batch is a reason. -/
theorem reason_of {c : Created W ε} {w : Workload W ε} {s u : WSys W ε} {b k q n : Nat} {f : Conflict}
    (hu : w.systems[q]? = some u) (hk : c.inBatch q k) (hlt : k < b) (hn : c.sch.number u.typeId = some n)
    (h : conflictInfo s.borrows n u.borrows = some f) : Reason c w s b f := by
  obtain ⟨x, hx, y, hy, hf⟩ := conflictInfo_some h
  have hcl : Clash x y := by
    rw [← conflictT_iff, ← conflictInfoT_isSome n, hf]; rfl
  unfold conflictInfoT at hf
  split at hf
  · next ht =>
    cases hf
    rw [Bool.and_eq_true, Bool.not_eq_true', Bool.not_eq_true'] at ht
    exact .thread hu hk hlt hn hx hy ht.1 ht.2
  · split at hf
    · cases hf
      exact .borrow hu hk hlt hn hx hy hcl
    · cases hf

theorem slot_describes {sch : Scheduler W ε} {w : Workload W ε} (hw : w.Wf) {ss : List (Sys W ε)} {o : Order W ε}
    (hg : Graph w (insertSystems sch w.systems).2 ss) (ho : Out ss o)
    (hn : Noted (insertSystems sch w.systems).2 ss) {b : Nat} {y : Sys W ε} (hy : (b, y) ∈ o.trace) {i : SystemInfo}
    (hi : Slot o.trace b i y) :
    ∃ s, w.systems[y.uid]? = some s ∧ Describes (made sch w o) w y.uid s b i := by
  have hl := link sch w
  obtain ⟨x, s, hx, hs, hpl, h1, h2, h3, h4, h5, h6, h7, h8, h9, h10⟩ := trace_sys hg ho hn hy
  obtain ⟨hi, hsrc⟩ := hi
  have hwf := (hw.sys _ s hs).2
  have numAt : ∀ (q : Nat) (xq : Sys W ε) (u : WSys W ε), (insertSystems sch w.systems).2[q]? = some xq →
      w.systems[q]? = some u → (made sch w o).sch.number u.typeId = some xq.index := fun q xq u hq hu =>
    ((insertSystems_number w.systems sch).2 q xq u hq hu).1
  -- tags of a placed system that are users' labels
  have userTag : ∀ {q : Nat} {xq : Sys W ε} {u : WSys W ε} {l : Label}, Placed xq u → Users [l] → l ∈ xq.tags → l ∈ u.tags := by
    intro q xq u l hp hl hm
    rw [hp.tags, List.mem_append, List.mem_singleton] at hm
    rcases hm with hm | hm
    · exact hm
    · exact absurd (by rw [hm]; simp) (hl.not_unique u.uid)
  refine ⟨s, hs, ⟨h10, ?_, ?_, ?_, ?_, ?_, ?_, ?_, ?_, ?_, ?_, ?_⟩⟩
  · rw [hi]; exact h1
  · rw [hi]; exact h2
  · rw [hi]; exact h4
  · intro j
    rw [hi]; exact h5 j
  · intro q l hq
    rw [hi] at hq
    replace hq : Constraint.mk q l ∈ y.notes.afterAll := hq
    rw [h6, mem_afterAllNotes] at hq
    obtain ⟨hne, xq, hxq, hf⟩ := hq
    obtain ⟨u, hu, hpu⟩ := hl.sys q xq hxq
    have hm := List.mem_of_find?_eq_some hf
    have ht := List.find?_some hf
    rw [decide_eq_true_eq] at ht
    refine ⟨fun h => hne h.symm, hm, u, hu, userTag (q := q) hpu ?_ ht⟩
    intro l' hl'
    rw [List.mem_singleton.mp hl']
    exact hwf.afterAll l hm
  · intro q u l hu hne hlm htag
    obtain ⟨xq, hxq, hpu⟩ := hl.fwd hu
    have : ((s.afterAll.find? fun l => decide (l ∈ xq.tags))).isSome = true := by
      rw [List.find?_isSome]
      exact ⟨l, hlm, by rw [decide_eq_true_eq, hpu.tags]; exact List.mem_append_left _ htag⟩
    obtain ⟨l', hl'⟩ := Option.isSome_iff_exists.mp this
    refine ⟨l', ?_⟩
    rw [hi]
    show _ ∈ y.notes.afterAll
    rw [h6, mem_afterAllNotes]
    exact ⟨fun h => hne h.symm, xq, hxq, hl'⟩
  · rw [hi]
    show (y.notes.afterAll.map _).Pairwise _
    rw [h6]
    exact afterAllNotes_sorted _ _ _
  · intro n l hq
    rw [hi] at hq
    replace hq : Constraint.mk n l ∈ y.notes.beforeAll := hq
    rw [h7, mem_beforeAllNotes] at hq
    obtain ⟨q, hne, xq, hxq, rfl, hf⟩ := hq
    obtain ⟨u, hu, hpu⟩ := hl.sys q xq hxq
    have hm := List.mem_of_find?_eq_some hf
    have ht := List.find?_some hf
    rw [decide_eq_true_eq] at ht
    refine ⟨q, u, fun h => hne h.symm, hu, numAt q xq u hxq hu, ht, userTag (q := q) hpu ?_ hm⟩
    intro l' hl'
    rw [List.mem_singleton.mp hl']
    exact hwf.beforeAll l ht
  · intro q u l hu hne hlm htag
    obtain ⟨xq, hxq, hpu⟩ := hl.fwd hu
    have : ((xq.tags.find? fun l => decide (l ∈ s.beforeAll))).isSome = true := by
      rw [List.find?_isSome]
      exact ⟨l, by rw [hpu.tags]; exact List.mem_append_left _ htag, by rw [decide_eq_true_eq]; exact hlm⟩
    obtain ⟨l', hl'⟩ := Option.isSome_iff_exists.mp this
    have ht := List.find?_some hl'
    rw [decide_eq_true_eq] at ht
    refine ⟨xq.index, l', numAt q xq u hxq hu, userTag (q := q) hpu ?_ (List.mem_of_find?_eq_some hl'), ?_⟩
    · intro k hk
      rw [List.mem_singleton.mp hk]
      exact hwf.beforeAll l' ht
    · rw [hi]
      show _ ∈ y.notes.beforeAll
      rw [h7, mem_beforeAllNotes]
      exact ⟨q, fun h => hne h.symm, xq, hxq, rfl, hl'⟩
  · intro f hf
    rcases hsrc with hc | ⟨q, hq, hb, hc, _⟩
    · rw [hf, h8] at hc
      unfold implicitConflict at hc
      cases hopt : x.optedOut with
      | true => rw [hopt, if_pos rfl, h9] at hc; cases hc
      | false =>
        rw [hopt, if_neg (by simp)] at hc
        cases hfd : findDown (blocks (insertSystems sch w.systems).2 x) y.uid with
        | none => rw [hfd] at hc; simp only at hc; rw [h9] at hc; cases hc
        | some j =>
          rw [hfd] at hc
          simp only at hc
          have hne : Explicit w j y.uid ∨ Nearest w j y.uid :=
            (hardSpec_iff hw hl (List.getElem?_eq_some_iff.mp hs).1).mp (.inr (.inl ⟨x, hx, hopt, hfd⟩))
          have hedge : Edge (insertSystems sch w.systems).2 w j y.uid := hne.elim .inl fun h => .inr (.inl h)
          obtain ⟨ka, kb, hka, hkb, hlt⟩ := (edge_earlier hg ho hedge).2 hne
          have hkb' : kb = b := inBatch_unique ho hkb h10
          unfold conflictWith at hc
          cases hxj : (insertSystems sch w.systems).2[j]? with
          | none => rw [hxj] at hc; cases hc
          | some xj =>
            rw [hxj] at hc
            simp only at hc
            obtain ⟨u, hu, hpu⟩ := hl.sys j xj hxj
            refine reason_of hu hka (by omega) (numAt j xj u hxj hu) (n := xj.index) ?_
            rw [← hpl.borrows, ← hpu.borrows]
            exact hc.symm
    · have hq' : (q.1, q.2) ∈ o.trace := hq
      obtain ⟨xq, u, _, hu, _, _, g2, _, g4, _, _, _, _, _, g10⟩ := trace_sys hg ho hn hq'
      refine reason_of hu g10 (by omega) g4 ?_
      rw [← h2, ← g2, ← hc]
      exact hf
  · rintro ⟨q, hq⟩ hnone
    rcases hsrc with hc | ⟨_, _, _, hc, hne⟩
    · rw [hnone, h8] at hc
      obtain ⟨xq, yq, hxq, hyq, hlt, hu1, hu2, hcf, hmin⟩ := hq
      rw [hs] at hyq
      cases hyq
      have hopt : x.optedOut = false := hpl.unordered.mpr hu2
      unfold implicitConflict at hc
      rw [hopt, if_neg (by simp)] at hc
      have hbq := (hl.blocks hpl q).mpr ⟨xq, hxq, hu1, hcf⟩
      cases hfd : findDown (blocks (insertSystems sch w.systems).2 x) y.uid with
      | none =>
        have := findDown_none hfd q hlt
        rw [hbq] at this; cases this
      | some k =>
        rw [hfd] at hc
        simp only at hc
        have hk := (findDown_some hfd).2.1
        unfold blocks at hk
        unfold conflictWith at hc
        cases hxk : (insertSystems sch w.systems).2[k]? with
        | none => rw [hxk] at hk; cases hk
        | some xk =>
          rw [hxk] at hk hc
          simp only [Bool.and_eq_true] at hk hc
          have := conflictInfo_isSome x.borrows xk.borrows xk.index
          rw [← hc, hk.2] at this
          cases this
    · exact hne hnone
end Verif.Sched
