import Verif.Lemmas.WorldReports
import Verif.Lemmas.WorldUnwind
import Verif.Lemmas.Exhausted

/-! Moving and cloning an entity to an index where another one is alive. -/
namespace Verif.World
open StoSpec (Sto Row Valid lookup)
variable {V : Type} {fl : Flags}

theorem spawn_over {s s' : Entities} {e y : EId} (h : s.spawn e = .ok (true, s')) (hy : s.isAlive y = true)
    (hi : y.idx = e.idx) : y.gen ≤ e.gen := by
  have hd : s.data[e.idx]? = some y := by rw [← hi]; exact (Entities.Inv.isAlive_iff ..).1 hy
  unfold Entities.spawn at h
  rw [hd] at h
  simp only [hy, if_true] at h
  split at h
  · assumption
  · cases h

theorem AbsW.weak {s : SparseSet V} {a : Sto V} {L} (h : AbsW s a L) : SparseSet.Abs False s a L :=
  { h.toAbs with clean := (fun h => h.elim), deleted := (fun h => h.elim), remCalls := (fun h => h.elim) }

/-- An insertion over the component of an older entity: what the storage has afterwards. -/
theorem insert_over {s : SparseSet V} {a : Sto V} {L} (h : AbsW s a L) {e : EId} (he : Valid e)
    (hold : ∀ r, a.rows e.idx = some r → r.gen ≤ e.gen) (v : V) (now : Nat) :
    ∃ r s', s.insert e v now = .ok (r, s') ∧
      ∀ x : EId, x.gen < 65535 → s'.get x = .ok (if x.idx = e.idx then (if x = e then some v else none) else lookup a.rows x) := by
  obtain ⟨out, s', b, L', h1, h2, h3, h4, h5, h6⟩ := insertU_tab h.weak he v now false false
  rw [SparseSet.insertU_plain] at h1
  cases hi : s.insert e v now with
  | error f => rw [hi] at h1; cases h1
  | ok q =>
    obtain ⟨r, t⟩ := q
    rw [hi] at h1
    cases h1
    refine ⟨r, _, rfl, fun x hx => ?_⟩
    rw [h2.get hx]
    by_cases hxi : x.idx = e.idx
    · rw [if_pos hxi]
      have hl := (h6 hold r rfl).2
      by_cases hxe : x = e
      · rw [if_pos hxe, hxe, hl]
      · rw [if_neg hxe]
        unfold lookup at hl ⊢
        rw [hxi]
        cases hb : b.rows e.idx with
        | none => rfl
        | some row =>
          rw [hb] at hl
          simp only [Option.bind] at hl ⊢
          split at hl
          · rename_i hg
            rw [if_neg]
            intro hg'
            exact hxe (by cases x; cases e; simp_all)
          · cases hl
    · rw [if_neg hxi, h4 x (.inl hxi)]

theorem stoOr_putOpt_ne {o o' : World V} {j k : Nat} {dst : EId} {nowO : Nat} {c : Option V}
    (h : putOpt fl o k dst nowO c = .ok o') (hj : j ≠ k) : o'.stoOr fl j = o.stoOr fl j :=
  stoOr_eq ((putOpt_each h).1 j hj)

theorem putOpt_total {o : World V} {k : Nat} {dst : EId} {nowO : Nat} (c : Option V)
    (h : ∀ v, ∃ q, (o.stoOr fl k).insert dst v nowO = .ok q) : ∃ o', putOpt fl o k dst nowO c = .ok o' := by
  cases c with
  | none => exact ⟨_, rfl⟩
  | some v =>
    obtain ⟨q, hq⟩ := h v
    exact ⟨o.put k q.2, by simp only [putOpt, hq, bind, Except.bind]⟩

/-- Loops over the storages go through when each storage does. -/
theorem moveLoop_total {src dst : EId} {now nowO : Nat} : ∀ (l : List (Nat × SparseSet V)) (o : World V),
    (l.map Prod.fst).Nodup → (∀ k s, (k, s) ∈ l → ∃ q, s.dynRemove src now = .ok q) →
    (∀ k v, k ∈ l.map Prod.fst → ∃ q, (o.stoOr fl k).insert dst v nowO = .ok q) →
    ∃ l' o', moveLoop fl src dst now nowO l o = .ok (l', o')
  | [], _, _, _, _ => ⟨_, _, rfl⟩
  | (k, s) :: l, o, hn, hr, hi => by
    simp only [List.map_cons, List.nodup_cons] at hn
    obtain ⟨q, hq⟩ := hr k s List.mem_cons_self
    obtain ⟨o1, h1⟩ := putOpt_total (nowO := nowO) q.1 (fun v => hi k v List.mem_cons_self)
    obtain ⟨l', o', h2⟩ := moveLoop_total l o1 hn.2 (fun k s hm => hr k s (List.mem_cons_of_mem _ hm))
      (fun j v hj => by
        rw [stoOr_putOpt_ne h1 (fun h => hn.1 (h ▸ hj))]
        exact hi j v (List.mem_cons_of_mem _ hj))
    exact ⟨(k, q.2) :: l', o', by simp only [moveLoop, hq, h1, h2, bind, Except.bind]⟩

theorem cloneCompLoop_total {cl : Nat → V → V} {src dst : EId} {nowO : Nat} : ∀ (l : List (Nat × SparseSet V)) (o : World V),
    (l.map Prod.fst).Nodup → (∀ k s, (k, s) ∈ l → ∃ c, cloneOf cl src k s = .ok c) →
    (∀ k v, k ∈ l.map Prod.fst → ∃ q, (o.stoOr fl k).insert dst v nowO = .ok q) →
    ∃ o', cloneCompLoop fl cl src dst nowO l o = .ok o'
  | [], _, _, _, _ => ⟨_, rfl⟩
  | (k, s) :: l, o, hn, hr, hi => by
    simp only [List.map_cons, List.nodup_cons] at hn
    obtain ⟨c, hq⟩ := hr k s List.mem_cons_self
    obtain ⟨o1, h1⟩ := putOpt_total (nowO := nowO) c (fun v => hi k v List.mem_cons_self)
    obtain ⟨o', h2⟩ := cloneCompLoop_total l o1 hn.2 (fun k s hm => hr k s (List.mem_cons_of_mem _ hm))
      (fun j v hj => by
        rw [stoOr_putOpt_ne h1 (fun h => hn.1 (h ▸ hj))]
        exact hi j v (List.mem_cons_of_mem _ hj))
    exact ⟨o', by simp only [cloneCompLoop, hq, h1, h2, bind, Except.bind]⟩

/-- What an entity of the other world has after a component `c` went over to `e`. -/
def handedOver (e : EId) (c : Option V) (x : EId) (old : Option V) : Option V :=
  match c with
  | none => old
  | some v => if x.idx = e.idx then (if x = e then some v else none) else old

theorem Ok.over {o : World V} {B : Nat → Option (Sto V)} {Q : List Nat} {I : List EId} (ho : Ok o B Q I) {e : EId} (hv : Valid e)
    {entsO} (hs : o.ents.spawn e = .ok (true, entsO)) (k : Nat) (v : V) (now : Nat) :
    ∃ r t, ((o.stoOr fl k).insert e v now = .ok (r, t)) ∧
      ∀ x : EId, x.gen < 65535 → t.get x = .ok (handedOver e (some v) x (look B k x)) := by
  obtain ⟨L, hL⟩ := ho.stoOr (fl := fl) k
  have hold : ∀ r, (tabOr fl B k).rows e.idx = some r → r.gen ≤ e.gen := fun r hr =>
    spawn_over (y := ⟨e.idx, r.gen⟩) hs (ho.tabOr_owned (fl := fl) k _ r hr) rfl
  obtain ⟨r, t, h1, h2⟩ := insert_over hL hv hold v now
  refine ⟨r, t, h1, fun x hx => ?_⟩
  rw [h2 x hx]
  have : lookup (tabOr fl B k).rows x = look B k x := by
    unfold tabOr look
    cases B k <;> rfl
  rw [this]
  rfl

end Verif.World
