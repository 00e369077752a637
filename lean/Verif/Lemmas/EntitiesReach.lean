import Verif.Spec.Entities
import Verif.Lemmas.EntitiesClear

/-! Lifting the invariant of `Entities` to every reachable state. -/
namespace Verif.Entities
open EntSpec

theorem genAt_eq_of_data {s s' : Entities} (h : s'.data = s.data) (i : Nat) :
    s'.genAt i = s.genAt i := by unfold genAt; rw [h]

theorem genAt_lt {s : Entities} {i g : Nat} (h : s.genAt i = some g) : i < s.data.length := by
  unfold genAt at h
  rcases ho : s.data[i]? with _ | o
  · rw [ho] at h; cases h
  · exact lt_of_getElem?_some ho

theorem genAt_some {s : Entities} {i : Nat} (h : i < s.data.length) : ∃ g, s.genAt i = some g := by
  unfold genAt; exact ⟨_, by rw [List.getElem?_eq_getElem h]; rfl⟩

/-- The ids handed out so far are bounded by the generations stored in the slots. -/
def Bounded (s : Entities) (Q : List Nat) (I : List EId) : Prop :=
  ∀ e ∈ I, ∃ g, s.genAt e.idx = some g ∧ e.gen ≤ g ∧ (e.idx ∈ Q → e.gen < g)

/-- The effect of one call in terms of generations and recyclable slots. -/
inductive Effect (s : Entities) (Q : List Nat) : Event → Entities → List Nat → Prop where
  | addNew {s'} : Q = [] → s'.genAt s.data.length = some 0 →
      (∀ i, i ≠ s.data.length → s'.genAt i = s.genAt i) → s'.data.length = s.data.length + 1 →
      s'.hook = s.hook → s'.log = s.log →
      Effect s Q (.added ⟨s.data.length, 0⟩) s' []
  | addOld {s' a Q' g} : Q = a :: Q' → s.genAt a = some g → (∀ i, s'.genAt i = s.genAt i) →
      s'.data.length = s.data.length → s'.hook = s.hook → s'.log = s.log →
      Effect s Q (.added ⟨a, g⟩) s' Q'
  | bulk {s'} (n : Nat) : (∀ i, i < s.data.length → s'.genAt i = s.genAt i) →
      (∀ i, s.data.length ≤ i → i < s.data.length + n → s'.genAt i = some 0) →
      s'.data.length = s.data.length + n → s'.hook = s.hook → s'.log = s.log →
      Effect s Q (.bulkAdded (fresh s.data.length n)) s' Q
  | deleteDead {e} : s.isAlive e = false → Effect s Q (.deleted e false) s Q
  | deleteExhausted {e} : s.isAlive e = true → 65533 ≤ e.gen →
      Effect s Q (.deleted e true) (s.callHook e) Q
  | delete {e s'} : s.isAlive e = true → e.gen < 65533 → s'.genAt e.idx = some (e.gen + 1) →
      (∀ i, i ≠ e.idx → s'.genAt i = s.genAt i) → s'.data.length = s.data.length →
      s'.hook = s.hook → s'.log = (if s.hook then s.log ++ [e] else s.log) →
      Effect s Q (.deleted e true) s' (Q ++ [e.idx])
  | spawnRefused {e} : e.idx < s.data.length →
      (∀ g, s.genAt e.idx = some g → e.gen < g) → Effect s Q (.spawned e false) s Q
  | spawned {e s' Q'} : Spawned s s' Q Q' e →
      (∀ g, s.genAt e.idx = some g → g ≤ if e.idx ∈ Q then e.gen + 1 else e.gen) →
      Effect s Q (.spawned e true) s' Q'
  | clear {s'} : Cleared s s' → Effect s Q .cleared s' (List.range s.data.length)

theorem generate_effect {s : Entities} {Q : List Nat} (h : Inv s Q) {e s'}
    (hs : s.generate = .ok (e, s')) (hcap : s'.data.length < EId.maxIndex) :
    ∃ Q', Inv s' Q' ∧ Effect s Q (.added e) s' Q' := by
  cases Q with
  | nil =>
    rw [generate_nil h] at hs
    simp only [Except.ok.injEq, Prod.mk.injEq] at hs
    obtain ⟨rfl, rfl⟩ := hs
    simp at hcap
    refine ⟨[], generate_nil_inv h hcap, .addNew rfl ?_ ?_ (by simp) rfl rfl⟩
    · unfold genAt; simp
    · intro i hi
      unfold genAt; simp only
      rcases Nat.lt_or_ge i s.data.length with h1 | h1
      · rw [List.getElem?_append_left h1]
      · rw [List.getElem?_eq_none (by simp; omega), List.getElem?_eq_none h1]
  | cons a Q =>
    obtain ⟨o, ho, hgen⟩ := generate_cons h
    rw [hgen] at hs
    simp only [Except.ok.injEq, Prod.mk.injEq] at hs
    obtain ⟨rfl, rfl⟩ := hs
    refine ⟨Q, generate_cons_inv h ho, .addOld rfl (by unfold genAt; rw [ho]; rfl) ?_ (by simp) rfl rfl⟩
    intro i
    unfold genAt; simp only
    exact set_idx_gens (by rw [ho]; rfl) i

theorem bulk_effect {s : Entities} {Q : List Nat} (h : Inv s Q) {n es s'}
    (hs : s.bulkGenerate n = .ok (es, s')) (hcap : s'.data.length < EId.maxIndex) :
    ∃ Q', Inv s' Q' ∧ Effect s Q (.bulkAdded es) s' Q' := by
  have hn : s.data.length + n < EId.maxIndex := by
    unfold bulkGenerate at hs
    rcases hf : freshIds s.data.length n with er | l
    · rw [hf] at hs; cases hs
    · rw [hf] at hs
      simp only [bind, Except.bind, Except.ok.injEq, Prod.mk.injEq] at hs
      obtain ⟨rfl, rfl⟩ := hs
      have hlen : ∀ n start l, freshIds start n = .ok l → l.length = n := by
        intro n
        induction n with
        | zero => intro start l hl; cases hl; rfl
        | succ n ih =>
          intro start l hl
          unfold freshIds at hl
          rcases h1 : EId.new start with er | x
          · rw [h1] at hl; cases hl
          · rcases h2 : freshIds (start + 1) n with er | y
            · rw [h1, h2] at hl; cases hl
            · rw [h1, h2] at hl
              simp only [bind, Except.bind, Except.ok.injEq] at hl
              rw [← hl]; simp [ih _ _ h2]
      have := hlen _ _ _ hf
      simp at hcap; omega
  rw [bulkGenerate_ok (Nat.le_of_lt hn)] at hs
  simp only [Except.ok.injEq, Prod.mk.injEq] at hs
  obtain ⟨rfl, rfl⟩ := hs
  refine ⟨Q, bulkGenerate_inv h hn, .bulk n ?_ ?_ (by simp) rfl rfl⟩
  · intro i hi
    unfold genAt; simp only; rw [List.getElem?_append_left hi]
  · intro i h1 h2
    unfold genAt; simp only
    rw [append_fresh_getElem?.2 (.inr ⟨h1, h2, rfl⟩)]; rfl

theorem delete_effect {s : Entities} {Q : List Nat} (h : Inv s Q) {e b s'}
    (hs : s.deleteUnchecked e = .ok (b, s')) :
    ∃ Q', Inv s' Q' ∧ Effect s Q (.deleted e b) s' Q' := by
  cases ha : s.isAlive e with
  | false =>
    rw [deleteUnchecked_dead ha] at hs
    cases hs
    exact ⟨Q, h, .deleteDead ha⟩
  | true =>
    by_cases hg : e.gen < 65533
    · rw [deleteUnchecked_alive h ha hg] at hs
      simp only [Except.ok.injEq, Prod.mk.injEq] at hs
      obtain ⟨rfl, rfl⟩ := hs
      refine ⟨_, callHook_inv (delete_inv h ha hg) e, .delete ha hg ?_ ?_ ?_ ?_ ?_⟩
      · unfold genAt; rw [callHook_data]; simp only
        rw [deletedData_getElem? h ha, if_pos rfl]; rfl
      · intro i hi
        unfold genAt; rw [callHook_data]; simp only
        rw [deletedData_getElem? h ha, if_neg hi]
        split
        · rcases s.data[i]? with _ | o <;> rfl
        · rfl
      · rw [callHook_data]; exact deletedData_length _ _ _
      · unfold callHook; split <;> rfl
      · unfold callHook; simp only; split <;> rfl
    · rw [deleteUnchecked_exhausted ha (by omega)] at hs
      cases hs
      exact ⟨Q, callHook_inv h e, .deleteExhausted ha (by omega)⟩

theorem spawn_total {s : Entities} {Q : List Nat} (h : Inv s Q) {e : EId}
    (hg : e.gen < 65535) (hcap : e.idx + 1 < EId.maxIndex) :
    ∃ b s' Q', s.spawn e = .ok (b, s') ∧ Inv s' Q' ∧ Effect s Q (.spawned e b) s' Q' := by
  rcases Nat.lt_or_ge e.idx s.data.length with hlt | hge
  · obtain ⟨o, ho⟩ : ∃ o, s.data[e.idx]? = some o := ⟨_, List.getElem?_eq_getElem hlt⟩
    have hgo : s.genAt e.idx = some o.gen := by unfold genAt; rw [ho]; rfl
    cases ha : s.isAlive o with
    | true =>
      have hnq : e.idx ∉ Q := by
        intro hm; have := (h.mem_iff_dead ho).1 hm; rw [ha] at this; cases this
      by_cases hgen : o.gen ≤ e.gen
      · refine ⟨true, _, Q, by rw [spawn_alive ho ha, if_pos hgen], ?_, .spawned ?_ ?_⟩
        · exact set_own_inv h h.list h.nodup (by omega) rfl h.chain hnq (fun _ hi _ => hi)
            (fun _ _ _ => rfl) (fun _ => rfl)
        · refine spawned_existing hlt rfl ?_ (fun _ => rfl) (by rw [List.erase_of_not_mem hnq])
          exact set_own_inv h h.list h.nodup (by omega) rfl h.chain hnq (fun _ hi _ => hi)
            (fun _ _ _ => rfl) (fun _ => rfl)
        · intro g hg'; rw [hgo] at hg'; cases hg'; rw [if_neg hnq]; exact hgen
      · refine ⟨false, s, Q, by rw [spawn_alive ho ha, if_neg hgen], h, .spawnRefused hlt ?_⟩
        intro g hg'; rw [hgo] at hg'; cases hg'; omega
    | false =>
      have hmq := (h.mem_iff_dead ho).2 ha
      by_cases hgen : o.gen ≤ e.gen + 1
      · obtain ⟨s', h1, h2⟩ := spawn_dead h ho ha hg hgen
        refine ⟨true, s', _, h1, h2.inv, .spawned h2 ?_⟩
        intro g hg'; rw [hgo] at hg'; cases hg'; rw [if_pos hmq]; exact hgen
      · refine ⟨false, s, Q, spawn_dead_refused ho ha hg hgen, h, .spawnRefused hlt ?_⟩
        intro g hg'; rw [hgo] at hg'; cases hg'; omega
  · obtain ⟨s', h1, h2⟩ := spawn_beyond h hge (by omega) hcap
    refine ⟨true, s', _, h1, h2.inv, .spawned h2 ?_⟩
    intro g hg'; rw [genAt_none hge] at hg'; cases hg'

theorem spawn_len {s : Entities} {e : EId} {b : Bool} {s' : Entities}
    (hs : s.spawn e = .ok (b, s')) (hge : s.data.length ≤ e.idx) : e.idx + 1 ≤ s'.data.length := by
  have setC : ∀ (d : List EId) (i v : Nat) (d' : List EId), setIdxC d i v = .ok d' →
      d'.length = d.length := by
    intro d i v d' h
    unfold setIdxC at h
    rcases h1 : getC d i with er | x
    · rw [h1] at h; cases h
    · rcases h2 : x.setIndex v with er | y
      · rw [h1] at h; simp only [bind, Except.bind, h2] at h; cases h
      · rw [h1] at h; simp only [bind, Except.bind, h2, Except.ok.injEq] at h
        rw [← h]; simp
  have gapL : ∀ (n start : Nat) (d d' : List EId), linkGap d start n = .ok d' →
      d'.length = d.length := by
    intro n
    induction n with
    | zero => intro start d d' h; cases h; rfl
    | succ n ih =>
      intro start d d' h
      unfold linkGap at h
      rcases h1 : setIdxC d start (start + 1) with er | x
      · rw [h1] at h; cases h
      · rw [h1] at h; simp only [bind, Except.bind] at h
        rw [ih _ _ _ h, setC _ _ _ _ h1]
  unfold spawn at hs
  rw [List.getElem?_eq_none hge] at hs
  have hz : EId.new 0 = .ok ⟨0, 0⟩ := rfl
  simp only [bind, Except.bind, hz] at hs
  split at hs
  · split at hs
    · split at hs
      · cases hs
      · rename_i h1
        split at hs
        · cases hs
        · rename_i h2
          split at hs
          · cases hs
          · rename_i h3
            simp only [Except.ok.injEq, Prod.mk.injEq] at hs
            rw [← hs.2]
            simp only [List.length_set]
            rw [setC _ _ _ _ h3, gapL _ _ _ _ h2, setC _ _ _ _ h1]; simp; omega
    · split at hs
      · cases hs
      · rename_i h2
        split at hs
        · cases hs
        · rename_i h3
          simp only [Except.ok.injEq, Prod.mk.injEq] at hs
          rw [← hs.2]
          simp only [List.length_set]
          rw [setC _ _ _ _ h3, gapL _ _ _ _ h2]; simp; omega
  · simp only [Except.ok.injEq, Prod.mk.injEq] at hs
    rw [← hs.2]; simp; omega

/-- Spawning with the dead generation 65535 still keeps the invariant when it returns. -/
theorem spawn_effect {s : Entities} {Q : List Nat} (h : Inv s Q) {e b s'} (hwf : e.WF)
    (hs : s.spawn e = .ok (b, s')) (hcap : s'.data.length < EId.maxIndex) :
    ∃ Q', Inv s' Q' ∧ Effect s Q (.spawned e b) s' Q' := by
  rcases Nat.lt_or_ge e.idx s.data.length with hlt | hge
  · obtain ⟨o, ho⟩ : ∃ o, s.data[e.idx]? = some o := ⟨_, List.getElem?_eq_getElem hlt⟩
    have hgo : s.genAt e.idx = some o.gen := by unfold genAt; rw [ho]; rfl
    cases ha : s.isAlive o with
    | true =>
      have hnq : e.idx ∉ Q := by
        intro hm; have := (h.mem_iff_dead ho).1 hm; rw [ha] at this; cases this
      rw [spawn_alive ho ha] at hs
      split at hs
      · rename_i hgen
        simp only [Except.ok.injEq, Prod.mk.injEq] at hs
        obtain ⟨rfl, rfl⟩ := hs
        have hi := set_own_inv h h.list h.nodup hwf.2 rfl h.chain hnq (fun _ hi _ => hi)
            (fun _ _ _ => rfl) (fun _ => rfl)
        refine ⟨Q, hi, .spawned ?_ ?_⟩
        · exact spawned_existing hlt rfl hi (fun _ => rfl) (by rw [List.erase_of_not_mem hnq])
        · intro g hg'; rw [hgo] at hg'; cases hg'; rw [if_neg hnq]; exact hgen
      · rename_i hgen
        simp only [Except.ok.injEq, Prod.mk.injEq] at hs
        obtain ⟨rfl, rfl⟩ := hs
        refine ⟨Q, h, .spawnRefused hlt ?_⟩
        intro g hg'; rw [hgo] at hg'; cases hg'; omega
    | false =>
      have hmq := (h.mem_iff_dead ho).2 ha
      by_cases hg : e.gen < 65535
      · have hcap' := h.cap
        by_cases hgen : o.gen ≤ e.gen + 1
        · obtain ⟨s'', h1, h2⟩ := spawn_dead h ho ha hg hgen
          rw [h1] at hs
          simp only [Except.ok.injEq, Prod.mk.injEq] at hs
          obtain ⟨rfl, rfl⟩ := hs
          refine ⟨_, h2.inv, .spawned h2 ?_⟩
          intro g hg'; rw [hgo] at hg'; cases hg'; rw [if_pos hmq]; exact hgen
        · rw [spawn_dead_refused ho ha hg hgen] at hs
          simp only [Except.ok.injEq, Prod.mk.injEq] at hs
          obtain ⟨rfl, rfl⟩ := hs
          refine ⟨Q, h, .spawnRefused hlt ?_⟩
          intro g hg'; rw [hgo] at hg'; cases hg'; omega
      · -- the overflow of `entity.gen() + 1`
        have hl : ∃ p, s.list = some p := by
          rw [h.list]
          rcases hl : listOf Q with _ | p
          · rw [listOf_eq_none hl] at hmq; cases hmq
          · exact ⟨p, rfl⟩
        obtain ⟨⟨n, o'⟩, hl⟩ := hl
        have h65 : e.gen + 1 = 65536 := by have := hwf.2; omega
        unfold spawn at hs
        rw [ho, hl] at hs
        simp only [ha, Bool.false_eq_true, if_false, if_pos h65] at hs
        cases hs
  · have hlen := spawn_len hs hge
    obtain ⟨s'', h1, h2⟩ := spawn_beyond h hge hwf.2 (by omega)
    rw [h1] at hs
    simp only [Except.ok.injEq, Prod.mk.injEq] at hs
    obtain ⟨rfl, rfl⟩ := hs
    refine ⟨_, h2.inv, .spawned h2 ?_⟩
    intro g hg'; rw [genAt_none hge] at hg'; cases hg'

theorem step_effect {s : Entities} {Q : List Nat} (h : Inv s Q) {ev s'} (hs : Step s ev s')
    (hcap : s'.data.length < EId.maxIndex) (hc : ev = .cleared → s.NotExhausted) :
    ∃ Q', Inv s' Q' ∧ Effect s Q ev s' Q' := by
  cases hs with
  | add h1 => exact generate_effect h h1 hcap
  | bulk h1 => exact bulk_effect h h1 hcap
  | delete h1 => exact delete_effect h h1
  | spawn hwf h1 => exact spawn_effect h hwf h1 hcap
  | clear h1 =>
    obtain ⟨s'', h2, h3⟩ := clear_ok h (hc rfl)
    rw [h1] at h2
    cases h2
    exact ⟨_, h3.inv, .clear h3⟩

theorem new_inv (hook : Bool) : Inv { Entities.new with hook := hook } [] :=
  ⟨rfl, List.nodup_nil, trivial, by intro i e he; simp [Entities.new] at he, (by decide : 0 < EId.maxIndex),
    by intro i e he; simp [Entities.new] at he⟩

theorem mem_fresh {start n : Nat} {e : EId} :
    e ∈ fresh start n ↔ start ≤ e.idx ∧ e.idx < start + n ∧ e.gen = 0 := by
  unfold fresh
  simp only [List.mem_map, List.mem_range'_1]
  constructor
  · rintro ⟨a, h1, rfl⟩; exact ⟨h1.1, h1.2, rfl⟩
  · rintro ⟨h1, h2, h3⟩; exact ⟨e.idx, ⟨h1, h2⟩, by cases e; simp_all⟩

/-- One step preserves the bound on issued ids, and what it creates is new. -/
theorem effect_bounded {s : Entities} {Q : List Nat} (h : Inv s Q) {I : List EId}
    (hb : Bounded s Q I) {ev s' Q'} (he : Effect s Q ev s' Q') :
    Bounded s' Q' (I ++ ev.issued) ∧ ∀ e ∈ ev.created, e ∉ I := by
  cases he with
  | addNew hQ hg ho hl _ _ =>
    constructor
    · intro e hm
      rcases List.mem_append.1 hm with hm | hm
      · obtain ⟨g, h1, h2, h3⟩ := hb e hm
        have := genAt_lt h1
        exact ⟨g, by rw [ho _ (by omega)]; exact h1, h2, by simp⟩
      · simp [Event.issued] at hm; subst hm; exact ⟨0, hg, Nat.le_refl _, by simp⟩
    · intro e hm hI
      simp [Event.created] at hm; subst hm
      obtain ⟨g, h1, _, _⟩ := hb _ hI
      have := genAt_lt h1
      simp at this
  | addOld hQ hg ho hl _ _ =>
    subst hQ
    have hnd := h.nodup
    rw [List.nodup_cons] at hnd
    constructor
    · intro e hm
      rcases List.mem_append.1 hm with hm | hm
      · obtain ⟨g', h1, h2, h3⟩ := hb e hm
        exact ⟨g', by rw [ho]; exact h1, h2, fun hq => h3 (List.mem_cons_of_mem _ hq)⟩
      · simp [Event.issued] at hm; subst hm
        exact ⟨_, by rw [ho]; exact hg, Nat.le_refl _, fun hq => absurd hq hnd.1⟩
    · intro e hm hI
      simp [Event.created] at hm; subst hm
      obtain ⟨g', h1, _, h3⟩ := hb _ hI
      rw [hg] at h1; cases h1
      exact absurd (h3 (by simp)) (Nat.lt_irrefl _)
  | bulk n ho hn hl _ _ =>
    constructor
    · intro e hm
      rcases List.mem_append.1 hm with hm | hm
      · obtain ⟨g', h1, h2, h3⟩ := hb e hm
        exact ⟨g', by rw [ho _ (genAt_lt h1)]; exact h1, h2, h3⟩
      · simp only [Event.issued] at hm
        obtain ⟨h1, h2, h3⟩ := mem_fresh.1 hm
        refine ⟨0, hn _ h1 h2, by omega, ?_⟩
        intro hq; have := h.mem_lt hq; omega
    · intro e hm hI
      simp only [Event.created] at hm
      obtain ⟨h1, h2, h3⟩ := mem_fresh.1 hm
      obtain ⟨g', h1', _, _⟩ := hb _ hI
      have := genAt_lt h1'
      omega
  | deleteDead _ => exact ⟨by simpa [Event.issued] using hb, by simp [Event.created]⟩
  | deleteExhausted ha hg =>
    refine ⟨?_, by simp [Event.created]⟩
    simp only [Event.issued, List.append_nil]
    intro e hm
    obtain ⟨g', h1, h2, h3⟩ := hb e hm
    exact ⟨g', by rw [genAt_eq_of_data (callHook_data s _)]; exact h1, h2, h3⟩
  | @delete d s' ha hlt hg ho hl _ _ =>
    refine ⟨?_, by simp [Event.created]⟩
    simp only [Event.issued, List.append_nil]
    have had := (h.isAlive_iff_genAt _).1 ha
    intro e hm
    obtain ⟨g', h1, h2, h3⟩ := hb e hm
    by_cases hi : e.idx = d.idx
    · rw [hi] at h1
      rw [had.2] at h1; cases h1
      exact ⟨_, by rw [hi]; exact hg, by omega, fun _ => by omega⟩
    · refine ⟨g', by rw [ho _ hi]; exact h1, h2, ?_⟩
      intro hq; simp at hq
      rcases hq with hq | hq
      · exact h3 hq
      · exact absurd hq hi
  | spawnRefused _ _ => exact ⟨by simpa [Event.issued] using hb, by simp [Event.created]⟩
  | @spawned d s' Q' hsp hcond =>
    refine ⟨?_, by simp [Event.created]⟩
    simp only [Event.issued]
    intro e hm
    rcases List.mem_append.1 hm with hm | hm
    · obtain ⟨g', h1, h2, h3⟩ := hb e hm
      have hlt := genAt_lt h1
      by_cases hi : e.idx = d.idx
      · refine ⟨d.gen, by rw [hi]; exact hsp.at_, ?_, ?_⟩
        · rw [hi] at h1 h3
          have := hcond g' h1
          split at this
          · rename_i hq; have := h3 hq; omega
          · omega
        · rw [hi, hsp.queue]
          intro hq
          rw [List.mem_append, h.nodup.mem_erase_iff, List.mem_range'_1] at hq
          omega
      · refine ⟨g', by rw [hsp.old _ hlt hi]; exact h1, h2, ?_⟩
        rw [hsp.queue]
        intro hq
        rw [List.mem_append, h.nodup.mem_erase_iff, List.mem_range'_1] at hq
        rcases hq with hq | hq
        · exact h3 hq.2
        · omega
    · simp at hm; subst hm
      refine ⟨_, hsp.at_, Nat.le_refl _, ?_⟩
      rw [hsp.queue]
      intro hq
      rw [List.mem_append, h.nodup.mem_erase_iff, List.mem_range'_1] at hq
      omega
  | clear hcl =>
    refine ⟨?_, by simp [Event.created]⟩
    simp only [Event.issued, List.append_nil]
    intro e hm
    obtain ⟨g', h1, h2, h3⟩ := hb e hm
    exact ⟨g' + 1, by rw [hcl.gen, h1]; rfl, by omega, fun _ => by omega⟩

/-- Everything the properties need about a reachable state. -/
theorem reach_inv {s : Entities} {h : List Event} (hr : Reach s h) :
    ∃ Q, Inv s Q ∧ Bounded s Q (issued h) := by
  induction hr with
  | init hook => exact ⟨[], new_inv hook, by intro e he; simp [issued] at he⟩
  | step hr hs hcap hc ih =>
    obtain ⟨Q, hi, hb⟩ := ih
    obtain ⟨Q', hi', he⟩ := step_effect hi hs hcap hc
    refine ⟨Q', hi', ?_⟩
    have := (effect_bounded hi hb he).1
    unfold issued at *
    simpa using this

end Verif.Entities
