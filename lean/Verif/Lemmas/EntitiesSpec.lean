import Verif.Lemmas.EntitiesReach

/-! The reachable states against the specification of `Verif/Spec/Entities.lean`. -/
namespace Verif.Entities
open EntSpec

/-- No delete was applied to an id that has used up the generations of its slot. -/
def NoExhaustedDelete (h : List Event) : Prop := ∀ e b, Event.deleted e b ∈ h → e.gen < 65533

theorem alive_snoc (h : List Event) (ev : Event) : alive (h ++ [ev]) = aliveStep (alive h) ev := by
  unfold alive; simp
theorem slots_snoc (h : List Event) (ev : Event) : slots (h ++ [ev]) = slotsStep (slots h) ev := by
  unfold slots; simp

theorem alive_congr {s s' : Entities} {Q Q' : List Nat} (h : Inv s Q) (h' : Inv s' Q') {e : EId}
    (hq : e.idx ∈ Q' ↔ e.idx ∈ Q) (hg : s'.genAt e.idx = s.genAt e.idx) :
    s'.isAlive e = s.isAlive e := by
  rw [Bool.eq_iff_iff, h.isAlive_iff_genAt, h'.isAlive_iff_genAt, hq, hg]

/-- Liveness after one step. -/
theorem effect_alive {s : Entities} {Q : List Nat} (h : Inv s Q) {ev s' Q'} (h' : Inv s' Q')
    (he : Effect s Q ev s' Q') (hne : ∀ e b, ev = .deleted e b → e.gen < 65533)
    {A : List EId} (hA : ∀ e, s.isAlive e = true ↔ e ∈ A) (e : EId) :
    s'.isAlive e = true ↔ e ∈ aliveStep A ev := by
  cases he with
  | addNew hQ hg ho hl _ _ =>
    subst hQ
    simp only [aliveStep, List.mem_append, List.mem_singleton, ← hA]
    rw [h'.isAlive_iff_genAt, h.isAlive_iff_genAt]
    by_cases hi : e.idx = s.data.length
    · rw [hi, hg, genAt_none (Nat.le_refl _)]
      constructor
      · rintro ⟨_, h2⟩
        right; cases e; simp at *; exact ⟨hi, h2.symm⟩
      · rintro (h2 | h2)
        · cases h2.2
        · rw [h2]; simp
    · rw [ho _ hi]
      constructor
      · intro h2; left; exact h2
      · rintro (h2 | h2)
        · exact h2
        · rw [h2] at hi; simp at hi
  | @addOld _ a Q1 g hQ hg ho hl _ _ =>
    subst hQ
    have hnd := h.nodup
    rw [List.nodup_cons] at hnd
    simp only [aliveStep, List.mem_append, List.mem_singleton, ← hA]
    rw [h'.isAlive_iff_genAt, h.isAlive_iff_genAt, ho]
    by_cases hi : e.idx = a
    · rw [hi, hg]
      constructor
      · rintro ⟨_, h2⟩
        right; cases e; simp at *; exact ⟨hi, h2.symm⟩
      · rintro (h2 | h2)
        · exact absurd List.mem_cons_self h2.1
        · rw [h2]; exact ⟨hnd.1, rfl⟩
    · constructor
      · rintro ⟨h1, h2⟩
        left; exact ⟨by simp [hi, h1], h2⟩
      · rintro (⟨h1, h2⟩ | h2)
        · exact ⟨fun hq => h1 (List.mem_cons_of_mem _ hq), h2⟩
        · rw [h2] at hi; simp at hi
  | bulk n ho hn hl _ _ =>
    simp only [aliveStep, List.mem_append, ← hA, mem_fresh]
    rw [h'.isAlive_iff_genAt, h.isAlive_iff_genAt]
    rcases Nat.lt_or_ge e.idx s.data.length with hi | hi
    · rw [ho _ hi]
      constructor
      · intro h2; left; exact h2
      · rintro (h2 | h2)
        · exact h2
        · omega
    · rw [genAt_none hi]
      rcases Nat.lt_or_ge e.idx (s.data.length + n) with hi2 | hi2
      · rw [hn _ hi hi2]
        constructor
        · rintro ⟨_, h2⟩; right; simp at h2; exact ⟨hi, hi2, h2.symm⟩
        · rintro (h2 | h2)
          · cases h2.2
          · exact ⟨fun hq => by have := h.mem_lt hq; omega, by rw [h2.2.2]⟩
      · rw [genAt_none (by omega)]
        constructor
        · rintro ⟨_, h2⟩; cases h2
        · rintro (h2 | h2)
          · cases h2.2
          · omega
  | @deleteDead d hd =>
    simp only [aliveStep, List.mem_filter, ← hA]
    constructor
    · intro ha; refine ⟨ha, ?_⟩
      simp; rintro rfl; rw [ha] at hd; cases hd
    · exact fun h2 => h2.1
  | deleteExhausted ha hg =>
    have := hne _ _ rfl; omega
  | @delete d _ ha hlt hg ho hl _ _ =>
    simp only [aliveStep, List.mem_filter, ← hA]
    rw [h'.isAlive_iff_genAt, h.isAlive_iff_genAt]
    have had := (h.isAlive_iff_genAt _).1 ha
    by_cases hi : e.idx = d.idx
    · constructor
      · rintro ⟨h1, _⟩; exact absurd (by simp [hi]) h1
      · rintro ⟨⟨_, h2⟩, h3⟩
        rw [hi, had.2] at h2
        simp at h3 h2
        exact absurd (by cases e; cases d; simp_all) h3
    · rw [ho _ hi]
      constructor
      · rintro ⟨h1, h2⟩
        refine ⟨⟨fun hq => h1 (by simp [hq]), h2⟩, ?_⟩
        simp; rintro rfl; exact hi rfl
      · rintro ⟨⟨h1, h2⟩, _⟩
        exact ⟨by simp [h1, hi], h2⟩
  | spawnRefused _ _ => simp only [aliveStep, ← hA]
  | @spawned d _ _ hsp _ =>
    have hQ : e.idx ∈ Q' ↔ (e.idx ≠ d.idx ∧ e.idx ∈ Q) ∨
        (s.data.length ≤ e.idx ∧ e.idx < d.idx) := by
      rw [hsp.queue, List.mem_append, h.nodup.mem_erase_iff, List.mem_range'_1]
      constructor
      · rintro (h1 | h1)
        · exact .inl h1
        · right; omega
      · rintro (h1 | h1)
        · exact .inl h1
        · right; omega
    simp only [aliveStep, List.mem_append, List.mem_filter, List.mem_singleton, ← hA]
    rw [h'.isAlive_iff_genAt, h.isAlive_iff_genAt, hQ]
    by_cases hi : e.idx = d.idx
    · rw [hi, hsp.at_]
      constructor
      · rintro ⟨_, h2⟩; right; simp at h2; cases e; cases d; simp_all
      · rintro (⟨_, h2⟩ | h2)
        · simp at h2
        · subst h2; exact ⟨by omega, rfl⟩
    · rcases Nat.lt_or_ge e.idx s.data.length with hlt | hge
      · rw [hsp.old _ hlt hi]
        constructor
        · rintro ⟨h1, h2⟩
          left
          refine ⟨⟨fun hq => h1 (.inl ⟨hi, hq⟩), h2⟩, by simpa using hi⟩
        · rintro (⟨⟨h1, h2⟩, _⟩ | h2)
          · refine ⟨?_, h2⟩
            rintro (h3 | h3)
            · exact h1 h3.2
            · omega
          · rw [h2] at hi; exact absurd rfl hi
      · rw [genAt_none hge]
        constructor
        · rintro ⟨h1, h2⟩
          exfalso
          have h4 := genAt_lt h2
          rw [hsp.len] at h4
          omega
        · rintro (⟨⟨_, h2⟩, _⟩ | h2)
          · cases h2
          · rw [h2] at hi; exact absurd rfl hi
  | clear hcl =>
    simp only [aliveStep, List.not_mem_nil, iff_false]
    rw [h'.isAlive_iff_genAt]
    rintro ⟨h1, h2⟩
    rw [List.mem_range] at h1
    have := genAt_lt h2
    rw [hcl.len] at this
    exact h1 this

/-- The slots after one step. -/
theorem effect_slots {s : Entities} {Q : List Nat} {ev s' Q'}
    (he : Effect s Q ev s' Q') :
    slotsStep ⟨s.data.length, Q⟩ ev = ⟨s'.data.length, Q'⟩ := by
  cases he with
  | addNew hQ _ _ hl _ _ => subst hQ; simp [slotsStep, hl]
  | addOld hQ _ _ hl _ _ => subst hQ; simp [slotsStep, hl]
  | bulk n _ _ hl _ _ => simp [slotsStep, hl]
  | deleteDead _ => simp [slotsStep]
  | deleteExhausted ha hg => simp [slotsStep, Nat.not_lt.2 hg, callHook]; split <;> rfl
  | delete _ hg _ _ hl _ _ => simp [slotsStep, hl, hg]
  | spawnRefused _ _ => simp [slotsStep]
  | spawned hsp _ => simp [slotsStep, hsp.len, hsp.queue]
  | clear hcl => simp [slotsStep, hcl.len]

theorem NoExhaustedDelete.init {h : List Event} {ev : Event} (hn : NoExhaustedDelete (h ++ [ev])) :
    NoExhaustedDelete h ∧ ∀ e b, ev = .deleted e b → e.gen < 65533 :=
  ⟨fun e b hm => hn e b (by simp [hm]), fun e b hm => hn e b (by simp [hm])⟩

/-- Liveness after one step, whatever is deleted. -/
theorem effect_lasting {s : Entities} {Q : List Nat} (h : Inv s Q) {ev s' Q'} (h' : Inv s' Q')
    (he : Effect s Q ev s' Q') {A : List EId} (hA : ∀ e, s.isAlive e = true ↔ e ∈ A) (e : EId) :
    s'.isAlive e = true ↔ e ∈ lastingStep A ev := by
  cases ev with
  | deleted d b =>
    simp only [lastingStep]
    split
    · rename_i hg
      exact effect_alive h h' he (fun _ _ heq => by cases heq; exact hg) hA e
    · rename_i hg
      cases he with
      | deleteDead _ => exact hA e
      | deleteExhausted _ _ =>
        have : (s.callHook d).isAlive e = s.isAlive e := by unfold callHook; split <;> rfl
        rw [this]; exact hA e
      | delete _ hg' => exact absurd hg' hg
  | added _ => exact effect_alive h h' he (fun _ _ heq => by cases heq) hA e
  | bulkAdded _ => exact effect_alive h h' he (fun _ _ heq => by cases heq) hA e
  | spawned _ _ => exact effect_alive h h' he (fun _ _ heq => by cases heq) hA e
  | cleared => exact effect_alive h h' he (fun _ _ heq => by cases heq) hA e

theorem lasting_snoc (h : List Event) (ev : Event) : lasting (h ++ [ev]) = lastingStep (lasting h) ev := by
  unfold lasting; simp

theorem reach_lasting {s : Entities} {h : List Event} (hr : Reach s h) :
    Inv s (slots h).queue ∧ s.data.length = (slots h).count ∧
      ∀ e, s.isAlive e = true ↔ e ∈ lasting h := by
  induction hr with
  | init hook =>
    refine ⟨new_inv hook, rfl, ?_⟩
    intro e; simp [lasting, isAlive, Entities.new]
  | @step s h ev s' hr hs hcap hc ih =>
    obtain ⟨hi, hlen, hal⟩ := ih
    obtain ⟨Q', hi', he⟩ := step_effect hi hs hcap hc
    have hsl := effect_slots he
    have hs' : slots (h ++ [ev]) = ⟨s'.data.length, Q'⟩ := by
      rw [slots_snoc, ← hsl, hlen]
    refine ⟨by rw [hs']; exact hi', by rw [hs'], ?_⟩
    intro e
    rw [lasting_snoc]
    exact effect_lasting hi hi' he hal e

theorem lasting_eq {h : List Event} (hn : NoExhaustedDelete h) : lasting h = alive h := by
  suffices ∀ A, h.foldl lastingStep A = h.foldl aliveStep A from this []
  induction h with
  | nil => intro A; rfl
  | cons ev h ih =>
    intro A
    rw [List.foldl_cons, List.foldl_cons, ih (fun e b hm => hn e b (List.mem_cons_of_mem _ hm))]
    congr 1
    cases ev with
    | deleted e b => simp [lastingStep, aliveStep, hn e b List.mem_cons_self]
    | _ => rfl

theorem reach_spec {s : Entities} {h : List Event} (hr : Reach s h) (hn : NoExhaustedDelete h) :
    Inv s (slots h).queue ∧ s.data.length = (slots h).count ∧
      ∀ e, s.isAlive e = true ↔ e ∈ alive h := by
  obtain ⟨h1, h2, h3⟩ := reach_lasting hr
  rw [lasting_eq hn] at h3
  exact ⟨h1, h2, h3⟩

/-- A reachable history can be cut anywhere. -/
theorem reach_prefix {s : Entities} {h : List Event} (hr : Reach s h) :
    ∀ h1 ev h2, h = h1 ++ ev :: h2 → ∃ s1 s2, Reach s1 h1 ∧ Step s1 ev s2 ∧ Reach s2 (h1 ++ [ev]) := by
  induction hr with
  | init hook => intro h1 ev h2 h; simp at h
  | @step s h ev' s' hr hs hcap hc ih =>
    intro h1 ev h2 heq
    rcases List.eq_nil_or_concat h2 with rfl | ⟨h3, x, rfl⟩
    · have := List.append_inj' heq rfl
      obtain ⟨rfl, h4⟩ := this
      cases h4
      exact ⟨s, s', hr, hs, .step hr hs hcap hc⟩
    · rw [List.concat_eq_append, ← List.cons_append, ← List.append_assoc] at heq
      have := List.append_inj' heq rfl
      exact ih h1 ev h3 this.1

/-- A slot is alive or recyclable. -/
theorem iter_length {s : Entities} {Q : List Nat} (h : Inv s Q) :
    s.iter.length + Q.length = s.data.length := by
  have key : ∀ (d : List EId) (k : Nat) (R : List Nat), R.Nodup → (∀ q ∈ R, k ≤ q ∧ q < k + d.length) →
      (∀ i e, d[i]? = some e → (e.idx = k + i ↔ k + i ∉ R)) →
      ((d.zipIdx k).filterMap fun x => if x.2 = x.1.idx then some x.1 else none).length + R.length =
        d.length := by
    intro d
    induction d with
    | nil =>
      intro k R _ hb _
      cases R with
      | nil => rfl
      | cons a R => have := hb a (by simp); simp at this; omega
    | cons x d ih =>
      intro k R hn hb hx
      have h0 := hx 0 x rfl
      simp only [Nat.add_zero] at h0
      have hn' : (R.erase k).Nodup := hn.erase k
      have ih' := ih (k + 1) (R.erase k) hn' (by
        intro q hq
        rw [hn.mem_erase_iff] at hq
        have := hb q hq.2
        simp at this; omega) (by
        intro i e hi
        have := hx (i + 1) e (by simpa using hi)
        rw [hn.mem_erase_iff]
        rw [show k + (i + 1) = k + 1 + i by omega] at this
        rw [this]
        constructor
        · intro h1 h2; exact h1 h2.2
        · intro h1 h2; exact h1 ⟨by omega, h2⟩)
      rw [List.zipIdx_cons]
      by_cases hk : k ∈ R
      · have : ¬ k = x.idx := by
          intro e; exact (h0.1 e.symm) hk
        simp only [List.filterMap_cons, if_neg this]
        have hl := List.length_erase_of_mem hk
        have hp : 0 < R.length := List.length_pos_of_mem hk
        simp only [List.length_cons]; omega
      · have : k = x.idx := (h0.2 hk).symm
        simp only [List.filterMap_cons, if_pos this, List.length_cons]
        rw [List.erase_of_not_mem hk] at ih'
        omega
  have := key s.data 0 Q h.nodup (fun q hq => ⟨Nat.zero_le _, by simpa using h.mem_lt hq⟩) (by
    intro i e hi
    rw [Nat.zero_add]
    constructor
    · intro hidx hq
      obtain ⟨e', he', hne⟩ := h.mem hq
      rw [hi] at he'; cases he'; exact hne hidx
    · intro hq; exact h.own i e hi hq)
  exact this

theorem _root_.Verif.EntSpec.Reach.add {s s' : Entities} {h : List Event} {e : EId} (hr : Reach s h)
    (hs : s.generate = .ok (e, s')) (hc : s'.data.length < EId.maxIndex) :
    Reach s' (h ++ [.added e]) := .step hr (.add hs) hc (by intro h; cases h)

theorem _root_.Verif.EntSpec.Reach.bulk {s s' : Entities} {h : List Event} {es : List EId} (n : Nat) (hr : Reach s h)
    (hs : s.bulkGenerate n = .ok (es, s')) (hc : s'.data.length < EId.maxIndex) :
    Reach s' (h ++ [.bulkAdded es]) := .step hr (.bulk hs) hc (by intro h; cases h)

theorem _root_.Verif.EntSpec.Reach.delete {s s' : Entities} {h : List Event} {b : Bool} (e : EId) (hr : Reach s h)
    (hs : s.deleteUnchecked e = .ok (b, s')) (hc : s'.data.length < EId.maxIndex) :
    Reach s' (h ++ [.deleted e b]) := .step hr (.delete hs) hc (by intro h; cases h)

theorem _root_.Verif.EntSpec.Reach.spawn {s s' : Entities} {h : List Event} {b : Bool} (e : EId) (hr : Reach s h)
    (hs : s.spawn e = .ok (b, s')) (hc : s'.data.length < EId.maxIndex) (hw : e.WF) :
    Reach s' (h ++ [.spawned e b]) := .step hr (.spawn hw hs) hc (by intro h; cases h)

theorem _root_.Verif.EntSpec.Reach.clear {s s' : Entities} {h : List Event} (hr : Reach s h)
    (hs : s.clear = .ok s') (hc : s'.data.length < EId.maxIndex) (hn : s.NotExhausted) :
    Reach s' (h ++ [.cleared]) := .step hr (.clear hs) hc (fun _ => hn)

end Verif.Entities
