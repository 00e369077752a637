import Verif.Lemmas.World
import Verif.Lemmas.EntitiesSpec

/-! The entity part of a world. -/
namespace Verif.World
open EntSpec (Event issued aliveStep)
open Entities (Inv Bounded genAt Effect)

theorem effect_gens {s : Entities} {Q : List Nat} (hg : ∀ i g, s.genAt i = some g → g < 65535)
    {ev s' Q'} (he : Effect s Q ev s' Q') (hsp : ∀ e b, ev = .spawned e b → e.gen < 65535)
    (hc : ev = .cleared → s.NotExhausted) : ∀ i g, s'.genAt i = some g → g < 65535 := by
  intro i g h
  cases he with
  | addNew _ h1 h2 _ _ _ =>
    by_cases hi : i = s.data.length
    · subst hi; rw [h1] at h; cases h; decide
    · rw [h2 i hi] at h; exact hg i g h
  | addOld _ _ h1 _ _ _ => rw [h1] at h; exact hg i g h
  | bulk n h1 h2 h3 _ _ =>
    rcases Nat.lt_or_ge i s.data.length with hi | hi
    · rw [h1 i hi] at h; exact hg i g h
    · rcases Nat.lt_or_ge i (s.data.length + n) with hi' | hi'
      · rw [h2 i hi hi'] at h; cases h; decide
      · rw [Entities.genAt_none (by omega)] at h; cases h
  | deleteDead => exact hg i g h
  | deleteExhausted =>
    rw [Entities.genAt_eq_of_data (s := s) (by simp [Entities.callHook]; split <;> rfl)] at h
    exact hg i g h
  | @delete e _ _ h1 h2 h3 _ _ _ =>
    by_cases hi : i = e.idx
    · subst hi; rw [h2] at h; cases h; omega
    · rw [h3 i hi] at h; exact hg i g h
  | spawnRefused => exact hg i g h
  | @spawned e _ _ hs _ =>
    have := hsp e true rfl
    by_cases hi : i = e.idx
    · subst hi; rw [hs.at_] at h; cases h; omega
    · rcases Nat.lt_or_ge i s.data.length with hl | hl
      · rw [hs.old i hl hi] at h; exact hg i g h
      · rcases Nat.lt_or_ge i e.idx with hl' | hl'
        · rw [hs.gap i hl hl'] at h; cases h; decide
        · rw [Entities.genAt_none (by rw [hs.len]; omega)] at h; cases h
  | clear hcl =>
    rw [hcl.gen] at h
    cases hg' : s.genAt i with
    | none => rw [hg'] at h; cases h
    | some g' =>
      rw [hg'] at h
      cases h
      unfold genAt at hg'
      cases hd : s.data[i]? with
      | none => rw [hd] at hg'; cases hg'
      | some o =>
        rw [hd] at hg'
        cases hg'
        have := hc rfl o (List.mem_of_getElem? hd)
        show o.gen + 1 < 65535
        omega

/-- One call on the entities. -/
theorem EntOK.effect {s : Entities} {Q : List Nat} {I : List EId} (h : EntOK s Q I) {ev s' Q'}
    (hi : Inv s' Q') (he : Effect s Q ev s' Q') (hsp : ∀ e b, ev = .spawned e b → e.gen < 65535)
    (hc : ev = .cleared → s.NotExhausted) : EntOK s' Q' (I ++ ev.issued) :=
  ⟨hi, (Entities.effect_bounded h.inv h.bnd he).1, effect_gens h.gens he hsp hc⟩

theorem alive_filter (s : Entities) (e : EId) : s.isAlive e = true ↔ e ∈ s.data.filter s.isAlive := by
  rw [List.mem_filter]
  constructor
  · intro h
    refine ⟨?_, h⟩
    rw [Inv.isAlive_iff] at h
    exact List.mem_of_getElem? h
  · exact fun h => h.2

/-- Liveness after a call that does not exhaust a slot. -/
theorem EntOK.alive {s : Entities} {Q : List Nat} {I : List EId} (h : EntOK s Q I) {ev s' Q'}
    (hi : Inv s' Q') (he : Effect s Q ev s' Q') (hne : ∀ e b, ev = .deleted e b → e.gen < 65533) (x : EId) :
    s'.isAlive x = true ↔ x ∈ aliveStep (s.data.filter s.isAlive) ev :=
  Entities.effect_alive h.inv hi he hne (alive_filter s) x

theorem ent_generate {s : Entities} {Q : List Nat} {I : List EId} (h : EntOK s Q I) {e s'}
    (hs : s.generate = .ok (e, s')) (hcap : s'.data.length < EId.maxIndex) :
    (∃ Q', EntOK s' Q' (I ++ [e])) ∧ (∀ x, s'.isAlive x = true ↔ s.isAlive x = true ∨ x = e) ∧
      (∀ x, s.isAlive x = true → x.idx ≠ e.idx) := by
  obtain ⟨Q', hi, he⟩ := Entities.generate_effect h.inv hs hcap
  refine ⟨⟨Q', h.effect hi he (fun _ _ h => by cases h) (fun h => by cases h)⟩, ?_, ?_⟩
  · intro x
    rw [h.alive hi he (fun _ _ h => by cases h)]
    simp only [aliveStep, List.mem_append, List.mem_singleton, ← alive_filter]
  · intro x hx hxe
    have h1 : s'.isAlive x = true := by
      rw [h.alive hi he (fun _ _ h => by cases h)]
      simp only [aliveStep, List.mem_append, ← alive_filter]
      exact .inl hx
    have h2 : s'.isAlive e = true := by
      rw [h.alive hi he (fun _ _ h => by cases h)]
      simp [aliveStep]
    have := alive_same h1 h2 hxe
    subst this
    cases he with
    | addNew hQ _ _ _ _ _ =>
      have := ((h.inv.isAlive_iff_genAt _).1 hx).2
      rw [Entities.genAt_none (Nat.le_refl _)] at this
      cases this
    | addOld hQ _ _ _ _ _ =>
      have := ((h.inv.isAlive_iff_genAt _).1 hx).1
      rw [hQ] at this
      exact this List.mem_cons_self

theorem generate_total {s : Entities} {Q : List Nat} {I : List EId} (h : EntOK s Q I)
    (hcap : s.data.length + 1 < EId.maxIndex) :
    ∃ e s', s.generate = .ok (e, s') ∧ s'.data.length < EId.maxIndex := by
  cases Q with
  | nil => exact ⟨_, _, Entities.generate_nil h.inv, by simpa using hcap⟩
  | cons a Q =>
    obtain ⟨e, s', h1, h2⟩ : ∃ e s', s.generate = .ok (e, s') ∧ s'.data.length = s.data.length := by
      obtain ⟨o, ho, hgen⟩ := Entities.generate_cons h.inv
      exact ⟨_, _, hgen, by simp⟩
    exact ⟨e, s', h1, by omega⟩

theorem ent_bulk {s : Entities} {Q : List Nat} {I : List EId} (h : EntOK s Q I) {n es s'}
    (hs : s.bulkGenerate n = .ok (es, s')) (hcap : s'.data.length < EId.maxIndex) :
    (∃ Q', EntOK s' Q' (I ++ es)) ∧ es = (List.range n).map (fun k => ⟨s.data.length + k, 0⟩) ∧
      s'.data = s.data ++ es ∧
      (∀ x, s'.isAlive x = true ↔ s.isAlive x = true ∨ x ∈ es) ∧
      (∀ x, s.isAlive x = true → x.idx < s.data.length) := by
  obtain ⟨Q', hi, he⟩ := Entities.bulk_effect h.inv hs hcap
  refine ⟨⟨Q', h.effect hi he (fun _ _ h => by cases h) (fun h => by cases h)⟩, ?_, ?_, ?_, ?_⟩
  · have hn : s'.data = s.data ++ es := by
      unfold Entities.bulkGenerate at hs
      rcases hf : Entities.freshIds s.data.length n with er | l
      · rw [hf] at hs; cases hs
      · rw [hf] at hs; cases hs; rfl
    cases he with
    | bulk m _ _ hl _ _ =>
      have hlen : s'.data.length = s.data.length + n := by
        unfold Entities.bulkGenerate at hs
        rcases hf : Entities.freshIds s.data.length n with er | l
        · rw [hf] at hs; cases hs
        · have hll : ∀ n start l, Entities.freshIds start n = .ok l → l.length = n := by
            intro n
            induction n with
            | zero => intro start l hl; cases hl; rfl
            | succ n ih =>
              intro start l hl
              unfold Entities.freshIds at hl
              rcases h1 : EId.new start with er | x
              · rw [h1] at hl; cases hl
              · rcases h2 : Entities.freshIds (start + 1) n with er | y
                · rw [h1, h2] at hl; cases hl
                · rw [h1, h2] at hl; cases hl; simp [ih _ _ h2]
          rw [hf] at hs; cases hs
          simp [hll _ _ _ hf]
      have : m = n := by omega
      subst this
      unfold Entities.fresh
      rw [List.range'_eq_map_range, List.map_map]
      rfl
  · unfold Entities.bulkGenerate at hs
    rcases hf : Entities.freshIds s.data.length n with er | l
    · rw [hf] at hs; cases hs
    · rw [hf] at hs; cases hs; rfl
  · intro x
    rw [h.alive hi he (fun _ _ h => by cases h)]
    simp only [aliveStep, List.mem_append, ← alive_filter]
  · intro x hx
    exact Entities.genAt_lt ((h.inv.isAlive_iff_genAt x).1 hx).2

theorem ent_delete {s : Entities} {Q : List Nat} {I : List EId} (h : EntOK s Q I) (e : EId) :
    ∃ s' Q', s.deleteUnchecked e = .ok (s.isAlive e, s') ∧ EntOK s' Q' I ∧
      (∀ x, x ≠ e → s'.isAlive x = s.isAlive x) ∧
      (e.gen < 65533 → s'.isAlive e = false) ∧
      (s.isAlive e = false → s' = s) ∧
      (65533 ≤ e.gen → s'.isAlive e = s.isAlive e) := by
  have hI : ∀ ev : Event, ev.issued = [] → I ++ ev.issued = I := by intro ev h; rw [h]; simp
  cases ha : s.isAlive e with
  | false =>
    exact ⟨s, Q, Entities.deleteUnchecked_dead ha, h, fun _ _ => rfl, fun _ => ha, fun _ => rfl, fun _ => ha⟩
  | true =>
    by_cases hg : e.gen < 65533
    · have hs := Entities.deleteUnchecked_alive h.inv ha hg
      obtain ⟨Q', hi, he⟩ := Entities.delete_effect h.inv hs
      have hE := h.effect hi he (fun _ _ h => by cases h) (fun h => by cases h)
      rw [hI _ rfl] at hE
      have hal := h.alive hi he (by intro e b heq; cases heq; exact hg)
      simp only [aliveStep, List.mem_filter, decide_eq_true_eq] at hal
      refine ⟨_, Q', hs, hE, ?_, ?_, (fun h => by cases h), (fun h => by omega)⟩
      · intro x hx
        rw [Bool.eq_iff_iff, hal, ← List.mem_filter, ← alive_filter]
        simp [hx]
      · intro _
        cases hb : Entities.isAlive _ e with
        | false => rfl
        | true => exact absurd rfl ((hal e).1 hb).2
    · have hs := Entities.deleteUnchecked_exhausted ha (by omega)
      obtain ⟨Q', hi, he⟩ := Entities.delete_effect h.inv hs
      have hE := h.effect hi he (fun _ _ h => by cases h) (fun h => by cases h)
      rw [hI _ rfl] at hE
      have hd : ∀ x, (s.callHook e).isAlive x = s.isAlive x := by
        intro x
        have : (s.callHook e).data = s.data := by simp [Entities.callHook]; split <;> rfl
        rw [Bool.eq_iff_iff, Inv.isAlive_iff, Inv.isAlive_iff, this]
      exact ⟨_, Q', hs, hE, fun x _ => hd x, fun h => absurd h hg, (fun h => by cases h),
        fun _ => (hd e).trans ha⟩

theorem ent_spawn {s : Entities} {Q : List Nat} {I : List EId} (h : EntOK s Q I) {e b s'}
    (hv : StoSpec.Valid e) (hs : s.spawn e = .ok (b, s')) (hcap : s'.data.length < EId.maxIndex) :
    (∃ Q', EntOK s' Q' (I ++ (Event.spawned e b).issued)) ∧
    (b = true → ∀ x, s'.isAlive x = true ↔ (s.isAlive x = true ∧ x.idx ≠ e.idx) ∨ x = e) ∧
    (b = false → s' = s) := by
  have hw : e.WF := ⟨hv.2, by have := hv.1; omega⟩
  obtain ⟨Q', hi, he⟩ := Entities.spawn_effect h.inv hw hs hcap
  refine ⟨⟨Q', h.effect hi he (by intro e b heq; cases heq; exact hv.1) (fun h => by cases h)⟩, ?_, ?_⟩
  · rintro rfl x
    rw [h.alive hi he (fun _ _ h => by cases h)]
    simp only [aliveStep, List.mem_append, List.mem_singleton]
    rw [List.mem_filter, ← alive_filter]
    simp
  · rintro rfl
    cases he
    rfl

theorem spawn_total' {s : Entities} {Q : List Nat} {I : List EId} (h : EntOK s Q I) {e : EId}
    (hv : StoSpec.Valid e) (hcap : e.idx + 1 < EId.maxIndex) :
    ∃ b s', s.spawn e = .ok (b, s') ∧ s'.data.length < EId.maxIndex := by
  obtain ⟨b, s', Q', h1, h2, _⟩ := Entities.spawn_total h.inv hv.1 hcap
  exact ⟨b, s', h1, h2.cap⟩

theorem ent_clear {s : Entities} {Q : List Nat} {I : List EId} (h : EntOK s Q I) (hne : s.NotExhausted) :
    ∃ s' Q', s.clear = .ok s' ∧ EntOK s' Q' I ∧ (∀ x, s'.isAlive x = false) := by
  obtain ⟨s', hs, hcl⟩ := Entities.clear_ok h.inv hne
  have hE := h.effect hcl.inv (.clear hcl) (fun _ _ h => by cases h) (fun _ => hne)
  refine ⟨s', _, hs, by simpa [Event.issued] using hE, ?_⟩
  intro x
  cases hb : s'.isAlive x with
  | false => rfl
  | true =>
    rw [h.alive hcl.inv (.clear hcl) (fun _ _ h => by cases h)] at hb
    cases hb

end Verif.World
