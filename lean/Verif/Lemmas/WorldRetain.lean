import Verif.Lemmas.WorldReach
import Verif.Props.SparseSet2

/-!
# `AllStorages::retain`
-/
namespace Verif.World
open StoSpec SparseSet
open EntSpec (issued)
variable {V : Type}

theorem lookup_iff {rows : Nat → Option (Row V)} {e : EId} {v : V} :
    lookup rows e = some v ↔ ∃ r, rows e.idx = some r ∧ r.gen = e.gen ∧ r.val = v := by
  unfold lookup
  cases rows e.idx with
  | none => simp
  | some r => simp

theorem retain_ok {s : SparseSet V} {a : Sto V} {L : List (Cell V)} (h : AbsW s a L) {σ : Type} (st : σ)
    (f : σ → EId → V → Bool × σ) (now : Nat) :
    ∃ st' calls s' a' L', s.retain now (st, []) (recordingRef f) = .ok ((st', calls), s') ∧
      AbsW s' a' L' ∧ Shrinks a a' ∧ (calls.map (·.id)).Nodup ∧
      (∀ x v, lookup a.rows x = some v ↔ ∃ c ∈ calls, c.id = x ∧ c.given = v) ∧
      (∀ c ∈ calls, lookup a'.rows c.id = if c.keep then some c.given else none) ∧
      ∀ x, lookup a.rows x = none → lookup a'.rows x = none := by
  have htot : ∃ r s', s.retainMut now (st, [])
      (recording fun st e c => (none, (f st e c).1, (f st e c).2)) = .ok (r, s') ∧
      ∀ c ∈ r.2, c.wrote = none := by
    obtain ⟨sp', L', order, _, h2, _⟩ := retainMutLoop_ok
      (recording fun st e c => (none, (f st e c).1, (f st e c).2)) now L.length s s.sparse
      L (st, []) 0 h.ok (by simp)
    rw [← h.shape] at h2
    refine ⟨(visit (recording fun st e c => (none, (f st e c).1, (f st e c).2)) s.trkMod now (st, [])
      order).1, build (s.noteDels now (dropped (visit (recording fun st e c => (none, (f st e c).1,
      (f st e c).2)) s.trkMod now (st, []) order).2)) sp' L', ?_, ?_⟩
    · unfold SparseSet.retainMut
      have hd : s.dense.length = L.length := by
        rw [show s.dense = L.map (·.id) from congrArg SparseSet.dense h.shape, List.length_map]
      rw [hd]
      exact h2
    · have key : ∀ (order : List (Cell V)) (st : σ) (acc : List (Call V)),
          (∀ c ∈ acc, c.wrote = none) →
          ∀ c ∈ (visit (recording (fun st e v => (none, (f st e v).1, (f st e v).2))) s.trkMod now (st, acc)
            order).1.2, c.wrote = none := by
        intro order
        induction order with
        | nil => intro st acc hacc c hc; exact hacc c hc
        | cons x order ih =>
          intro st acc hacc c hc
          have hc' : c ∈ (visit (recording (fun st e v => (none, (f st e v).1, (f st e v).2))) s.trkMod now
            ((f st x.id x.val).2, acc ++ [⟨x.id, x.val, none, (f st x.id x.val).1⟩]) order).1.2 := hc
          refine ih (f st x.id x.val).2 (acc ++ [⟨x.id, x.val, none, (f st x.id x.val).1⟩]) ?_ c hc'
          intro c' hc'
          rcases List.mem_append.1 hc' with hm | hm
          · exact hacc c' hm
          · rw [List.mem_singleton.1 hm]
      exact key order st [] (by simp)
  obtain ⟨⟨st', calls⟩, s', hm, hwrote⟩ := htot
  obtain ⟨⟨order, ho, hcalls⟩, _⟩ := abs_retainMut (Q := True) h.toAbs hm (fun q => q)
  have hre : s.retain now (st, []) (recordingRef f) = .ok ((st', calls), s') := by
    rw [retain_eq_retainMut]
    exact hm
  obtain ⟨L', hL'⟩ := h.call (.retain hre) (fun _ _ _ h => by cases h)
  have hidx : (calls.map (·.id.idx)).Nodup := by
    have h1 : calls.map (·.id.idx) = order.map (·.id.idx) := by
      have := congrArg (List.map fun x : EId × V => x.1.idx) hcalls
      simpa [List.map_map, Function.comp_def] using this
    rw [h1]
    exact ((ho.map _).nodup_iff).2 h.ok.nodup
  have hcell : ∀ d ∈ L, a.rows d.id.idx = some d.toRow ∧ d.toRow.gen = d.id.gen := by
    intro d hd
    refine ⟨?_, h.clean trivial d hd⟩
    rw [h.rows, (cellAt_some h.ok).2 ⟨hd, rfl⟩]; rfl
  have hmem : ∀ c ∈ calls, ∃ d ∈ L, d.id = c.id ∧ d.val = c.given := by
    intro c hc
    have h1 : (c.id, c.given) ∈ order.map (fun d => (d.id, d.val)) := by
      rw [← hcalls]; exact List.mem_map.2 ⟨c, hc, rfl⟩
    obtain ⟨d, hd, hde⟩ := List.mem_map.1 h1
    injection hde with h2 h3
    exact ⟨d, ho.mem_iff.1 hd, h2, h3⟩
  have hlook : ∀ d ∈ L, lookup a.rows d.id = some d.val := by
    intro d hd
    unfold lookup
    rw [(hcell d hd).1]
    simp only [Option.bind_some, if_pos (hcell d hd).2]
    rfl
  have hsh := step_shrinks (ev := .retained now calls) trivial a
  refine ⟨st', calls, s', _, L', hre, hL', hsh, ?_, ?_, ?_, ?_⟩
  · have : (calls.map (·.id)).map (·.idx) = calls.map (·.id.idx) := by simp [List.map_map, Function.comp_def]
    rw [← this] at hidx
    exact List.Pairwise.of_map (·.idx) (fun a b hab hc => hab (by rw [hc])) hidx
  · intro x v
    constructor
    · intro hl
      obtain ⟨r, h1, h2, h3⟩ := lookup_iff.1 hl
      rw [h.rows] at h1
      obtain ⟨d, h4, h5⟩ := Option.map_eq_some_iff.1 h1
      obtain ⟨hd, hi⟩ := (cellAt_some h.ok).1 h4
      have hid : d.id = x := by
        have := h.clean trivial d hd
        subst h5
        have h2' : d.gen = x.gen := h2
        cases x; cases hdi : d.id
        simp_all
      have h6 : (d.id, d.val) ∈ calls.map (fun c => (c.id, c.given)) := by
        rw [hcalls]; exact List.mem_map.2 ⟨d, ho.mem_iff.2 hd, rfl⟩
      obtain ⟨c, hc, hce⟩ := List.mem_map.1 h6
      injection hce with h7 h8
      exact ⟨c, hc, h7.trans hid, h8.trans (by subst h5; exact h3)⟩
    · rintro ⟨c, hc, rfl, rfl⟩
      obtain ⟨d, hd, h1, h2⟩ := hmem c hc
      rw [← h1, ← h2, hlook d hd]
  · intro c hc
    obtain ⟨d, hd, h1, h2⟩ := hmem c hc
    have hrow : (step a (.retained now calls)).rows c.id.idx = callRow a.trkMod now c (a.rows c.id.idx) := by
      show (match calls.find? (fun x => x.id.idx == c.id.idx) with
        | some x => callRow a.trkMod now x (a.rows c.id.idx)
        | none => a.rows c.id.idx) = _
      rw [find_idx hidx hc]
    unfold lookup
    rw [hrow, ← h1, (hcell d hd).1]
    unfold callRow
    rw [hwrote c hc]
    cases c.keep with
    | false => rfl
    | true =>
      simp only [Option.bind_some, if_true]
      rw [if_pos (hcell d hd).2, ← h2]
      rfl
  · intro x hx
    cases hl : lookup (step a (.retained now calls)).rows x with
    | none => rfl
    | some v =>
      exfalso
      obtain ⟨r, h1, h2, h3⟩ := lookup_iff.1 hl
      obtain ⟨r', h4, h5⟩ := hsh _ _ h1
      have : lookup a.rows x = some r'.val := lookup_iff.2 ⟨r', h4, h5.trans h2, rfl⟩
      rw [hx] at this
      cases this

end Verif.World
