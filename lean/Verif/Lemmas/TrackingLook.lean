import Verif.Lemmas.TrackingProg

/-! # Lemmas: what a session sees, in terms of the order of sessions -/
namespace Verif.TrkSpec
open StoSpec Tracking
variable {T : Type}

theorem prog_split {w0 : World T} : ∀ {t2 t1 : List (Act T)} {w : World T}, Prog w0 (t1 ++ t2) w →
    ∃ w1, Prog w0 t1 w1 ∧ Prog w1 t2 w := by
  intro t2
  have key : ∀ (n : Nat) (t2 : List (Act T)), t2.length = n → ∀ {t1 : List (Act T)} {w : World T},
      Prog w0 (t1 ++ t2) w → ∃ w1, Prog w0 t1 w1 ∧ Prog w1 t2 w := by
    intro n
    induction n with
    | zero =>
      intro t2 hl t1 w hp
      have : t2 = [] := by cases t2 <;> simp_all
      subst this
      rw [List.append_nil] at hp
      exact ⟨w, hp, .nil⟩
    | succ n ih =>
      intro t2 hl t1 w hp
      have hne : t2 ≠ [] := by intro h; subst h; cases hl
      have hsplit : t2 = t2.dropLast ++ [t2.getLast hne] := (List.dropLast_concat_getLast hne).symm
      rw [hsplit, ← List.append_assoc] at hp
      generalize hx : t2.getLast hne = x at hp hsplit
      generalize hy : t2.dropLast = y at hp hsplit
      generalize ht : t1 ++ y ++ [x] = t at hp
      cases hp with
      | nil => simp at ht
      | @snoc tr w' a _ hp hd =>
        obtain ⟨h1, h2⟩ := List.append_inj' ht rfl
        injection h2 with h2
        subst h1; subst h2
        have hlen : y.length = n := by rw [← hy, List.length_dropLast]; omega
        obtain ⟨w1, hp1, hp2⟩ := ih y hlen hp
        refine ⟨w1, hp1, ?_⟩
        rw [hsplit]
        exact .snoc hp2 hd
  exact fun {t1 w} hp => key t2.length t2 rfl hp

theorem prog_last {w0 w : World T} {tr : List (Act T)} {x : Act T} (hp : Prog w0 (tr ++ [x]) w) :
    ∃ w1, Prog w0 tr w1 ∧ Does w1 x w := by
  obtain ⟨w1, h1, h2⟩ := prog_split hp
  generalize ht : [x] = t at h2
  cases h2 with
  | nil => cases ht
  | @snoc tr w' a _ hp hd =>
    have : [] ++ [x] = tr ++ [a] := ht
    obtain ⟨h3, h4⟩ := List.append_inj' this rfl
    injection h4 with h4
    subst h4
    subst h3
    generalize hn : ([] : List (Act T)) = n at hp
    cases hp with
    | nil => exact ⟨w1, h1, hd⟩
    | snoc _ _ => simp at hn

/-- A session consumed by a clear does nothing more. -/
theorem consumed {w w' : World T} {tr : List (Act T)} {q : Nat} (hp : Prog w tr w')
    (hu : q ∈ w.used) (hs : w.session q = none) :
    (q ∈ w'.used ∧ w'.session q = none) ∧ ∀ x ∈ tr, changes x ≠ some q := by
  induction hp with
  | nil => exact ⟨⟨hu, hs⟩, fun x h => by cases h⟩
  | @snoc tr w1 a w2 _ hd ih =>
    obtain ⟨⟨h1, h2⟩, h3⟩ := ih
    have hupd : ∀ p : Nat, upd w1.session p none q = none := by
      intro p; unfold upd; split
      · rfl
      · exact h2
    have hne : ∀ (p : Nat) (s : Session), w1.session p = some s → p ≠ q := by
      intro p s hp he; subst he; rw [h2] at hp; cases hp
    have hall : ∀ (hx : changes a ≠ some q), ∀ x ∈ tr ++ [a], changes x ≠ some q := by
      intro hx x hm
      rw [List.mem_append, List.mem_singleton] at hm
      rcases hm with hm | rfl
      · exact h3 x hm
      · exact hx
    cases hd with
    | start hp =>
      refine ⟨⟨List.mem_cons_of_mem _ h1, ?_⟩, hall (by simp [changes])⟩
      show upd _ _ _ q = none
      unfold upd
      split
      · rename_i hq
        exact absurd (hq ▸ h1) hp
      · exact h2
    | call hp => exact ⟨⟨h1, h2⟩, hall (fun h => hne _ _ hp (by simpa [changes] using h))⟩
    | look => exact ⟨⟨h1, h2⟩, hall (by simp [changes])⟩
    | list => exact ⟨⟨h1, h2⟩, hall (by simp [changes])⟩
    | clearIns hp => exact ⟨⟨h1, hupd _⟩, hall (fun h => hne _ _ hp (by simpa [changes] using h))⟩
    | clearMod hp => exact ⟨⟨h1, hupd _⟩, hall (fun h => hne _ _ hp (by simpa [changes] using h))⟩
    | worldClearIns => exact ⟨⟨h1, h2⟩, hall (by simp [changes])⟩
    | worldClearMod => exact ⟨⟨h1, h2⟩, hall (by simp [changes])⟩

/-! ## Flags through the invariant -/

theorem has_iff {a b c d : Bool} {tr : List (Act T)} {w : World T} {h : List (Event T)}
    (hi : Inv a b c d tr w h) {e : EId} (he : Valid e) :
    (∃ v, w.set.get e = .ok (some v)) ↔ ∃ r, rowOf (after (Sto.init a b c d) h) e = some r := by
  obtain ⟨L, hL⟩ := SparseSet.run_abs hi.run
  have hget := hL.get he.1
  rw [hget]
  constructor
  · rintro ⟨v, hv⟩
    injection hv with hv
    obtain ⟨r, hr, _⟩ := lookup_iff.1 hv
    exact ⟨r, hr⟩
  · rintro ⟨r, hr⟩
    exact ⟨r.val, by rw [lookup_iff.2 ⟨r, hr, rfl⟩]⟩

theorem look_spec {c d : Bool} {tr : List (Act T)} {w : World T} {h : List (Event T)}
    (hi : Inv true true c d tr w h) (hn : NoTakeover (events tr)) {e : EId} (he : Valid e) {s : Session}
    {i m : Bool} (h1 : (w.view s).isInserted e = .ok i) (h2 : (w.view s).isModified e = .ok m) :
    (i = true ↔ (∃ v, w.set.get e = .ok (some v)) ∧ ∃ p, bornBy tr e = some p ∧
      InWindow (pos (starts tr) p) (w.view s).lastInsertion s.current) ∧
    (m = true ↔ (∃ v, w.set.get e = .ok (some v)) ∧ ∃ p, writtenBy tr e = some p ∧
      InWindow (pos (starts tr) p) (w.view s).lastModification s.current) := by
  obtain ⟨L, hL⟩ := SparseSet.run_abs hi.run
  have hnt := hi.takeover hn
  have hgood := run_good hi.run hnt
  have htrk := good_trk hgood
  have hrows := good_rows hgood e
  have hfl := flags_ok hL he.1 (w.view s) rfl
  have h1' := hfl.1 (htrk.1 rfl)
  have h2' := hfl.2 (htrk.2 rfl)
  rw [h1] at h1'
  rw [h2] at h2'
  injection h1' with h1'
  injection h2' with h2'
  rw [has_iff hi he, h1', h2']
  have h0 : ∀ l cur, ¬ InWindow 0 l cur := by intro l cur hw; exact Nat.not_lt_zero _ hw.1
  cases hr : rowOf (after (Sto.init true true c d) h) e with
  | none => simp
  | some r =>
    have hn0 : rowOf (Sto.init true true c d : Sto T) e = none := rfl
    have hins := hrows.1 rfl (fun r hr => by rw [hn0] at hr; cases hr) r hr
    have hmod := hrows.2.1 rfl (fun r hr => by rw [hn0] at hr; cases hr) r hr
    rw [hi.born] at hins
    rw [hi.written] at hmod
    simp only [isWithin_iff]
    rw [hins, hmod]
    refine ⟨⟨?_, ?_⟩, ⟨?_, ?_⟩⟩
    · intro hw
      refine ⟨⟨r, rfl⟩, ?_⟩
      cases hb : bornBy tr e with
      | none => rw [hb] at hw; exact absurd hw (h0 _ _)
      | some p => rw [hb] at hw; exact ⟨p, rfl, hw⟩
    · rintro ⟨_, p, hb, hw⟩
      rw [hb]; exact hw
    · intro hw
      refine ⟨⟨r, rfl⟩, ?_⟩
      cases hb : writtenBy tr e with
      | none => rw [hb] at hw; exact absurd hw (h0 _ _)
      | some p => rw [hb] at hw; exact ⟨p, rfl, hw⟩
    · rintro ⟨_, p, hb, hw⟩
      rw [hb]; exact hw

theorem mem_starts_get {ss : List (Nat × Option Nat)} {p : Nat} (h : p ∈ ss.map (·.1)) :
    ∃ (k : Nat) (x : Option Nat), ss[k]? = some (p, x) := by
  obtain ⟨y, hy, rfl⟩ := List.mem_map.1 h
  obtain ⟨k, hk⟩ := List.mem_iff_getElem?.1 hy
  exact ⟨k, y.2, hk⟩

/-- The window of a run of a system of a workload. -/
theorem system_window {a b c d : Bool} {tr : List (Act T)} {w : World T} {h : List (Event T)}
    (hi : Inv a b c d tr w h) {r : Nat} {sys : Nat} {s : Session} (hs : w.session r = some s)
    (hr : (r, some sys) ∈ starts tr) {p : Nat} (hp : p ∈ (starts tr).map (·.1)) (l : Nat) :
    InWindow (pos (starts tr) p) (s.lastRun.getD l) s.current ↔ reporter tr sys p = some r := by
  obtain ⟨m, sy, hm, hcur, hlast⟩ := hi.session r s hs
  obtain ⟨m', hm'⟩ := List.mem_iff_getElem?.1 hr
  have hmm := nodup_getElem hi.nodup hm hm' rfl
  subst hmm
  rw [hm] at hm'
  injection hm' with hm'
  injection hm' with _ hsy
  subst hsy
  obtain ⟨k, x, hk⟩ := mem_starts_get hp
  rw [pos_eq hi.nodup hk, hlast, hcur]
  exact window_iff hi.nodup hk hm

/-- The order in which sessions began is the order of their timestamps. -/
theorem before_iff {a b c d : Bool} {tr : List (Act T)} {w : World T} {h : List (Event T)}
    (hi : Inv a b c d tr w h) {p q : Nat} (hp : p ∈ (starts tr).map (·.1)) (hq : q ∈ (starts tr).map (·.1)) :
    Before tr p q ↔ pos (starts tr) p < pos (starts tr) q := by
  obtain ⟨k, x, hk⟩ := mem_starts_get hp
  obtain ⟨k', x', hk'⟩ := mem_starts_get hq
  rw [pos_eq hi.nodup hk, pos_eq hi.nodup hk']
  constructor
  · rintro ⟨i, j, a, b, h1, h2, h3⟩
    have := nodup_getElem hi.nodup h1 hk rfl
    have := nodup_getElem hi.nodup h2 hk' rfl
    omega
  · intro h
    exact ⟨k, k', x, x', hk, hk', by omega⟩

theorem pos_inj {a b c d : Bool} {tr : List (Act T)} {w : World T} {h : List (Event T)}
    (hi : Inv a b c d tr w h) {p q : Nat} (hp : p ∈ (starts tr).map (·.1)) (hq : q ∈ (starts tr).map (·.1))
    (heq : pos (starts tr) p = pos (starts tr) q) : p = q := by
  obtain ⟨k, x, hk⟩ := mem_starts_get hp
  obtain ⟨k', x', hk'⟩ := mem_starts_get hq
  rw [pos_eq hi.nodup hk, pos_eq hi.nodup hk'] at heq
  have : k = k' := by omega
  subst this
  rw [hk] at hk'
  injection hk' with hk'
  injection hk'

/-! ## Cleared storages -/

theorem call_last {a b c d : Bool} {s s' : SparseSet T} {h : List (Event T)} {ev : Event T}
    (hr : Run (SparseSet.new a b c d) h s) (hs : Step s ev s') (hc : isControl ev = false) :
    s'.lastInsert = s.lastInsert ∧ s'.lastModified = s.lastModified := by
  obtain ⟨L, hL⟩ := SparseSet.run_abs hr
  obtain ⟨L', hL'⟩ := SparseSet.run_abs (hr.snoc hs)
  rw [hL'.lastInsert, hL.lastInsert, hL'.lastModified, hL.lastModified, after_snoc]
  cases ev <;> first | exact ⟨rfl, rfl⟩ | cases hc

theorem no_clear_last {a b c d : Bool} {t1 t2 : List (Act T)} {w w' : World T} {h : List (Event T)}
    (hi : Inv a b c d t1 w h) (hp : Prog w t2 w') :
    (NoClear true t2 → w'.set.lastInsert = w.set.lastInsert) ∧
    (NoClear false t2 → w'.set.lastModified = w.set.lastModified) := by
  have key : ∃ h', Inv a b c d (t1 ++ t2) w' h' ∧ (NoClear true t2 → w'.set.lastInsert = w.set.lastInsert) ∧
    (NoClear false t2 → w'.set.lastModified = w.set.lastModified) := by
    induction hp with
    | nil => exact ⟨h, by rw [List.append_nil]; exact hi, fun _ => rfl, fun _ => rfl⟩
    | @snoc tr w1 x w2 _ hd ih =>
      obtain ⟨h1, hi1, h2, h3⟩ := ih
      obtain ⟨h', hi'⟩ := inv_does hi1 hd
      refine ⟨h', by rw [← List.append_assoc]; exact hi', ?_, ?_⟩
      · intro hn
        have hx := hn x (by simp)
        have := h2 (fun y hy => hn y (List.mem_append_left _ hy))
        rw [← this]
        cases hd with
        | call _ hs hc _ => exact (call_last hi1.run hs hc).1
        | clearIns => cases hx
        | worldClearIns => cases hx
        | _ => rfl
      · intro hn
        have hx := hn x (by simp)
        have := h3 (fun y hy => hn y (List.mem_append_left _ hy))
        rw [← this]
        cases hd with
        | call _ hs hc _ => exact (call_last hi1.run hs hc).2
        | clearMod => cases hx
        | worldClearMod => cases hx
        | _ => rfl
  exact key.elim fun _ h => h.2

end Verif.TrkSpec
