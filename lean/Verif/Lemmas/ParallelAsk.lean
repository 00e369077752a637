import Verif.Spec.ParallelAny
import Verif.Lemmas.Registry

/-!
# Conditions and tasks of one batch, without assumptions on systems
-/
namespace Verif.Sched

variable {W ε : Type} {b : Batches W ε} {progs : List (Prog W ε)} {names : List Label} {nm : WSys W ε → Label}
  {pr : WSys W ε → Prog W ε}

theorem chosen_cons_true (s : WSys W ε) (L flags) : chosen (s :: L) (true :: flags) = s :: chosen L flags := rfl
theorem chosen_cons_false (s : WSys W ε) (L flags) : chosen (s :: L) (false :: flags) = chosen L flags := rfl

theorem askAll_len : ∀ {L : List (WSys W ε)} {w w' flags}, askAll L w = (w', .ok flags) → flags.length = L.length
  | [], w, w', flags, h => by cases h; rfl
  | s :: L, w, w', flags, h => by
    unfold askAll at h
    split at h
    · cases h
    · split at h
      · cases h
      · rename_i h2
        cases h
        simp [askAll_len h2]

theorem askAll_mem : ∀ {L : List (WSys W ε)} {w w' s e}, askAll L w = (w', .error (s, e)) → s ∈ L
  | [], w, w', s, e, h => by cases h
  | t :: L, w, w', s, e, h => by
    unfold askAll at h
    split at h
    · cases h; exact List.mem_cons_self
    · split at h
      · rename_i h2
        cases h
        exact List.mem_cons_of_mem _ (askAll_mem h2)
      · cases h

theorem conditions_any : ∀ (ps : List (Nat × Option Nat)) (L : List (WSys W ε)) (w : W),
    ps.map (fun p => b.job (names.zip progs) p.1 p.2) = L.map (fun s => some ((nm s, pr s), s.runIf)) →
    conditions b names ps w = .ok (match askAll L w with
      | (w, .error (s, e)) => (w, .error (.run (nm s) e))
      | (w, .ok fs) => (w, .ok fs))
  | [], [], _, _ => rfl
  | [], _ :: _, _, h => by cases h
  | _ :: _, [], _, h => by cases h
  | p :: ps, s :: L, w, h => by
    simp only [List.map_cons, List.cons.injEq] at h
    obtain ⟨h1, h2, h3⟩ := job_zip h.1
    unfold conditions askAll
    rw [shouldRun_ok h1 h3 w]
    rcases evalC s.runIf w with ⟨w1, e | f⟩
    · rfl
    · dsimp only
      rw [conditions_any ps L w1 h.2]
      rcases askAll L w1 with ⟨w2, ⟨s', e⟩ | fs⟩ <;> rfl

/-- What identifies a task. -/
def mark (names : List Label) (t : Task W ε) : Option Label × Status W ε := (names[t.index]?, t.status)

theorem poolTasks_any : ∀ (ps : List (Nat × Option Nat)) (flags : List Bool) (L : List (WSys W ε)),
    ps.map (fun p => b.job (names.zip progs) p.1 p.2) = L.map (fun s => some ((nm s, pr s), s.runIf)) →
    ∃ ts, poolTasks progs ((ps.map (·.1)).zip flags) = .ok ts
      ∧ ts.map (mark names) = (chosen L flags).map fun s => (some (nm s), .todo (pr s))
  | [], flags, [], _ => ⟨[], by rfl, by cases flags <;> rfl⟩
  | [], _, _ :: _, h => by cases h
  | _ :: _, _, [], h => by cases h
  | p :: ps, [], s :: L, _ => ⟨[], rfl, rfl⟩
  | p :: ps, f :: flags, s :: L, h => by
    simp only [List.map_cons, List.cons.injEq] at h
    obtain ⟨ts, k1, k2⟩ := poolTasks_any ps flags L h.2
    obtain ⟨h1, h2, h3⟩ := job_zip h.1
    rw [List.map_cons, List.zip_cons_cons]
    cases f with
    | false => exact ⟨ts, k1, k2⟩
    | true =>
      refine ⟨⟨p.1, false, .todo (pr s)⟩ :: ts, ?_, ?_⟩
      · unfold poolTasks task
        rw [h2, k1]
        rfl
      · rw [chosen_cons_true, List.map_cons, List.map_cons, k2]
        unfold mark
        dsimp only
        rw [h1]

/-- The batch at `x`, `r` runs the systems `L`. -/
structure Holds (b : Batches W ε) (progs : List (Prog W ε)) (names : List Label) (x : Option Nat × List Nat)
    (r : Option Nat × List (Option Nat)) (nm : WSys W ε → Label) (pr : WSys W ε → Prog W ε) (L : List (WSys W ε)) : Prop where
  jobs : b.batchJobs (names.zip progs) x r = L.map fun s => some ((nm s, pr s), s.runIf)
  len : x.2.length = r.2.length
  main : x.1 = none → r.1 = none

theorem batch_any {x : Option Nat × List Nat} {r : Option Nat × List (Option Nat)} {L : List (WSys W ε)}
    (h : Holds b progs names x r nm pr L) (w0 : W) :
    match askAll L w0 with
    | (w1, .error (s, e)) => batchConditions b names x r w0 = .ok (w1, .error (.run (nm s) e))
    | (w1, .ok flags) => ∃ m fs sp ts, batchConditions b names x r w0 = .ok (w1, .ok (m, fs)) ∧ split x m fs = .ok sp
      ∧ tasks progs sp = .ok ts ∧ ts.map (mark names) = (chosen L flags).map (fun s => (some (nm s), .todo (pr s))) := by
  obtain ⟨hj, hlen, hmain⟩ := h
  obtain ⟨x1, x2⟩ := x
  obtain ⟨r1, r2⟩ := r
  dsimp only at hlen hmain
  have hx2 : x2 = (x2.zip r2).map (·.1) := by
    rw [List.map_fst_zip]
    omega
  have rest : ∀ (L2 : List (WSys W ε)) (m : Bool) (flags : List Bool), (x1 = none ∨ m = false) → flags.length = L2.length →
      (x2.zip r2).map (fun p => b.job (names.zip progs) p.1 p.2) = L2.map (fun s => some ((nm s, pr s), s.runIf)) →
      ∃ sp ts, split (x1, x2) m flags = .ok sp ∧ tasks progs sp = .ok ts
        ∧ ts.map (mark names) = (chosen L2 flags).map (fun s => (some (nm s), .todo (pr s))) := by
    intro L2 m flags hm hfl hj2
    have hsplit : split (x1, x2) m flags = match x2, flags with
        | [], _ => .ok (none, []) | _ :: _, [] => .error .panic | i :: rest, true :: fs => .ok (some i, rest.zip fs)
        | i :: rest, false :: fs => .ok (none, (i, false) :: rest.zip fs) := by
      unfold split
      dsimp only
      rcases hm with rfl | rfl
      · rfl
      · cases x1 <;> rfl
    rw [hsplit]
    cases hz : x2 with
    | nil =>
      rw [hz] at hj2
      cases L2 with
      | nil => exact ⟨_, [], rfl, rfl, by cases flags <;> rfl⟩
      | cons s L => cases hj2
    | cons i is =>
      rw [hz] at hj2 hlen
      cases r2 with
      | nil => simp at hlen
      | cons ri ris =>
        rw [List.zip_cons_cons] at hj2
        have hlen' : is.length = ris.length := by simpa using hlen
        have his : is = (is.zip ris).map (·.1) := by rw [List.map_fst_zip]; omega
        cases L2 with
        | nil => cases hj2
        | cons s L =>
          cases flags with
          | nil => cases hfl
          | cons f fs =>
            cases f with
            | true =>
              simp only [List.map_cons, List.cons.injEq] at hj2
              obtain ⟨ts, k1, k2⟩ := poolTasks_any (is.zip ris) fs L hj2.2
              obtain ⟨h1, h2, h3⟩ := job_zip hj2.1
              refine ⟨_, ⟨i, true, .todo (pr s)⟩ :: ts, rfl, ?_, ?_⟩
              · unfold tasks task
                dsimp only at h2 ⊢
                rw [h2, his, k1]
                rfl
              · rw [chosen_cons_true, List.map_cons, List.map_cons, k2]
                unfold mark
                dsimp only at h1 ⊢
                rw [h1]
            | false =>
              obtain ⟨ts, k1, k2⟩ := poolTasks_any ((i, ri) :: is.zip ris) (false :: fs) (s :: L) hj2
              refine ⟨_, ts, rfl, ?_, k2⟩
              rw [List.map_cons, ← his] at k1
              exact k1
  cases hx1 : x1 with
  | none =>
    have hr1 := hmain hx1
    rw [hx1] at hj
    have hj2 : (x2.zip r2).map (fun p => b.job (names.zip progs) p.1 p.2) = L.map (fun s => some ((nm s, pr s), s.runIf)) := hj
    have hbc : batchConditions b names (none, x2) (r1, r2) w0 = match conditions b names (x2.zip r2) w0 with
        | .error f => .error f | .ok (w, .error e) => .ok (w, .error e)
        | .ok (w, .ok xs) => .ok (w, .ok (true, xs)) := by
      rw [hr1]
      unfold batchConditions shouldRun
      dsimp only
      rcases conditions b names (x2.zip r2) w0 with f | ⟨w, e | xs⟩ <;> rfl
    rw [hbc, conditions_any _ L w0 hj2]
    rcases ha : askAll L w0 with ⟨w1, ⟨s, e⟩ | flags⟩
    · rfl
    · obtain ⟨sp, ts, g1, g2, g3⟩ := rest L true flags (.inl hx1) (askAll_len ha) hj2
      rw [hx1] at g1
      exact ⟨true, flags, sp, ts, rfl, g1, g2, g3⟩
  | some i =>
    rw [hx1] at hj
    cases L with
    | nil => cases hj
    | cons s L =>
      have hj' : b.job (names.zip progs) i r1 :: (x2.zip r2).map (fun p => b.job (names.zip progs) p.1 p.2)
        = some ((nm s, pr s), s.runIf) :: L.map (fun s => some ((nm s, pr s), s.runIf)) := hj
      simp only [List.cons.injEq] at hj'
      obtain ⟨h1, h2, h3⟩ := job_zip hj'.1
      unfold batchConditions askAll
      dsimp only
      rw [shouldRun_ok h1 h3 w0]
      rcases he : evalC s.runIf w0 with ⟨w1, e | m⟩
      · rfl
      · dsimp only
        rw [conditions_any _ L w1 hj'.2]
        rcases ha : askAll L w1 with ⟨w2, ⟨t, e⟩ | fs⟩
        · rfl
        · dsimp only
          cases m with
          | false =>
            obtain ⟨sp, ts, g1, g2, g3⟩ := rest L false fs (.inr rfl) (askAll_len ha) hj'.2
            rw [hx1] at g1
            exact ⟨false, fs, sp, ts, rfl, g1, g2, g3⟩
          | true =>
            obtain ⟨ts, g1, g2⟩ := poolTasks_any _ fs L hj'.2
            rw [← hx2] at g1
            refine ⟨true, fs, _, ⟨i, true, .todo (pr s)⟩ :: ts, rfl, rfl, ?_, ?_⟩
            · unfold tasks task
              dsimp only at h2 ⊢
              rw [h2, g1]
              rfl
            · rw [chosen_cons_true, List.map_cons, List.map_cons, g2]
              unfold mark
              dsimp only at h1 ⊢
              rw [h1]

/-- A task keeps its place and its name; what has ended has ended; who is skipped was skipped because of an error. -/
structure Kept (names : List Label) (ts ts' : List (Task W ε)) : Prop where
  names : ts'.map (fun t => names[t.index]?) = ts.map fun t => names[t.index]?
  skipped : (∃ t ∈ ts', t.status = .skipped) → (∃ t ∈ ts, t.status = .skipped) ∨ ∃ t ∈ ts', ∃ e, t.status = .ended (.error e)

theorem set_names {ts : List (Task W ε)} {i : Nat} {t : Task W ε} {st} (ht : ts[i]? = some t) :
    (ts.set i { t with status := st }).map (fun t => names[t.index]?) = ts.map fun t => names[t.index]? := by
  obtain ⟨hl, he⟩ := List.getElem?_eq_some_iff.mp ht
  rw [List.map_set]
  apply List.ext_getElem?
  intro j
  rw [List.getElem?_set]
  by_cases hij : i = j
  · subst hij
    rw [if_pos rfl, if_pos (by simpa using hl), List.getElem?_map, ht]
    rfl
  · rw [if_neg hij]

theorem mem_set {α : Type} {l : List α} {i : Nat} {b : α} {x : α} (hx : x ∈ l.set i b) : x = b ∨ x ∈ l :=
  (List.mem_or_eq_of_mem_set hx).symm

theorem keeps_ended {ts : List (Task W ε)} {i : Nat} {t : Task W ε} {st} (ht : ts[i]? = some t)
    (hne : ∀ r, t.status ≠ .ended r) {u : Task W ε} {r} (hu : u ∈ ts) (hr : u.status = .ended r) :
    u ∈ ts.set i { t with status := st } := by
  obtain ⟨j, hj⟩ := List.mem_iff_getElem?.mp hu
  have hij : i ≠ j := by
    rintro rfl
    rw [ht] at hj
    cases hj
    exact hne r hr
  exact List.mem_iff_getElem?.mpr ⟨j, by rw [List.getElem?_set_ne hij, hj]⟩

theorem steps_kept {w w' : W} {ts ts' : List (Task W ε)} (h : Steps w ts w' ts') : Kept names ts ts' := by
  induction h with
  | refl => exact ⟨rfl, fun h => .inl h⟩
  | tail _ hs ih =>
    have carry : ∀ {ts ts1 : List (Task W ε)} {i : Nat} {t : Task W ε} {st}, Kept names ts ts1 →
        ts1[i]? = some t → (∀ r, t.status ≠ .ended r) → (st = .skipped → ∃ u ∈ ts1, ∃ e, u.status = .ended (.error e)) →
        Kept names ts (ts1.set i { t with status := st }) := by
      intro ts ts1 i t st ih ht hne hsk
      refine ⟨(set_names ht).trans ih.names, ?_⟩
      have keep : (∃ u ∈ ts1, ∃ e, u.status = .ended (.error e)) →
          ∃ u ∈ ts1.set i { t with status := st }, ∃ e, u.status = .ended (.error e) := by
        rintro ⟨u, hu, e, he⟩
        exact ⟨u, keeps_ended ht hne hu he, e, he⟩
      rintro ⟨u, hu, hus⟩
      rcases mem_set hu with rfl | hu
      · exact .inr (keep (hsk hus))
      · rcases ih.skipped ⟨u, hu, hus⟩ with h | h
        · exact .inl h
        · exact .inr (keep h)
    have none : ∀ {t : Task W ε} {p}, t.status = .todo p → ∀ r, t.status ≠ .ended r := by
      intro t p h r h'; rw [h] at h'; cases h'
    have none' : ∀ {t : Task W ε} {p}, t.status = .going p → ∀ r, t.status ≠ .ended r := by
      intro t p h r h'; rw [h] at h'; cases h'
    cases hs with
    | start i p ht hp => exact carry ih ht (none hp) (fun h => by cases h)
    | act i u k ht hp => exact carry ih ht (none' hp) (fun h => by cases h)
    | finish i r ht hp => exact carry ih ht (none' hp) (fun h => by cases h)
    | skip i p e ht hp _ hm _ he => exact carry ih ht (none hp) (fun _ => ⟨_, hm, e, he⟩)

/-- A task can always be brought to its end. -/
theorem task_ends (pre rest : List (Task W ε)) (t : Task W ε) (p : Prog W ε) : ∀ (w0 w : W) (ts0),
    Steps w0 ts0 w (pre ++ { t with status := .going p } :: rest) →
    ∃ w' r, Steps w0 ts0 w' (pre ++ { t with status := .ended r } :: rest) := by
  have hset : ∀ {a b : Task W ε}, (pre ++ a :: rest).set pre.length b = pre ++ b :: rest := by
    intro a b
    rw [List.set_append_right _ _ (Nat.le_refl _), Nat.sub_self]
    rfl
  have hget : ∀ {a : Task W ε}, (pre ++ a :: rest)[pre.length]? = some a := by
    intro a
    rw [List.getElem?_append_right (Nat.le_refl _), Nat.sub_self]
    rfl
  induction p with
  | done r =>
    intro w0 w ts0 h
    refine ⟨w, r, ?_⟩
    have := Steps.tail h (Step.finish pre.length r hget rfl)
    rw [hset] at this
    exact this
  | act u k ih =>
    intro w0 w ts0 h
    have := Steps.tail h (Step.act pre.length u k hget rfl)
    rw [hset] at this
    exact ih w w0 (u w) ts0 this

theorem tasks_end : ∀ (rest pre : List (Task W ε)) (w0 w : W) (ts0), (∀ t ∈ pre, t.over) →
    (∀ t ∈ rest, ∃ p, t.status = .todo p) → Steps w0 ts0 w (pre ++ rest) →
    ∃ w' ts', Steps w0 ts0 w' ts' ∧ (∀ t ∈ ts', t.over) ∧ ts'.map (·.index) = (pre ++ rest).map (·.index)
  | [], pre, w0, w, ts0, hpre, _, h => ⟨w, pre, by simpa using h, hpre, by simp⟩
  | t :: rest, pre, w0, w, ts0, hpre, hrest, h => by
    obtain ⟨p, hp⟩ := hrest t (by simp)
    have hset : ∀ {a b : Task W ε}, (pre ++ a :: rest).set pre.length b = pre ++ b :: rest := by
      intro a b
      rw [List.set_append_right _ _ (Nat.le_refl _), Nat.sub_self]
      rfl
    have hget : (pre ++ t :: rest)[pre.length]? = some t := by
      rw [List.getElem?_append_right (Nat.le_refl _), Nat.sub_self]
      rfl
    have h1 := Steps.tail h (Step.start pre.length p hget hp)
    rw [hset] at h1
    obtain ⟨w1, r, h2⟩ := task_ends pre rest t p w0 w ts0 h1
    have h3 : Steps w0 ts0 w1 ((pre ++ [{ t with status := .ended r }]) ++ rest) := by simpa using h2
    have h4 : ∀ t' ∈ pre ++ [{ t with status := .ended r }], t'.over := by
      intro t' ht'
      rcases List.mem_append.mp ht' with ht' | ht'
      · exact hpre t' ht'
      · simp only [List.mem_singleton] at ht'
        subst ht'
        exact .inr ⟨r, rfl⟩
    obtain ⟨w', ts', k1, k2, k3⟩ := tasks_end rest _ w0 w1 ts0 h4
      (fun t ht => hrest t (List.mem_cons_of_mem _ ht)) h3
    exact ⟨w', ts', k1, k2, by rw [k3]; simp⟩

/-- A batch always has a result. -/
theorem batch_total {x : Option Nat × List Nat} {r : Option Nat × List (Option Nat)} {L : List (WSys W ε)}
    (h : Holds b progs names x r nm pr L) (w0 : W) : ∃ w' res, RunBatch b progs names x r w0 w' res := by
  have hb := batch_any h w0
  rcases ha : askAll L w0 with ⟨w1, ⟨s, e⟩ | flags⟩
  · rw [ha] at hb
    exact ⟨w1, _, .condition hb⟩
  · rw [ha] at hb
    obtain ⟨m, fs, sp, ts, k1, k2, k3, k4⟩ := hb
    have htodo : ∀ t ∈ ts, ∃ p, t.status = .todo p := by
      intro t ht
      have : mark names t ∈ (chosen L flags).map (fun s => (some (nm s), .todo (pr s))) := by
        rw [← k4]; exact List.mem_map_of_mem ht
      obtain ⟨s, _, hs⟩ := List.mem_map.mp this
      exact ⟨pr s, (congrArg Prod.snd hs).symm⟩
    have hname : ∀ i ∈ ts.map (·.index), ∃ n, names[i]? = some n := by
      intro i hi
      obtain ⟨t, ht, rfl⟩ := List.mem_map.mp hi
      have : mark names t ∈ (chosen L flags).map (fun s => (some (nm s), .todo (pr s))) := by
        rw [← k4]; exact List.mem_map_of_mem ht
      obtain ⟨s, _, hs⟩ := List.mem_map.mp this
      exact ⟨nm s, (congrArg Prod.fst hs).symm⟩
    obtain ⟨w', ts', g1, g2, g3⟩ := tasks_end ts [] w1 w1 ts (fun t ht => by cases ht) htodo .refl
    have hname' : ∀ t ∈ ts', ∃ n, names[t.index]? = some n := by
      intro t ht
      apply hname
      have : t.index ∈ ts'.map (·.index) := List.mem_map_of_mem ht
      rw [g3] at this
      exact this
    by_cases hmain : ∃ t ∈ ts', t.main = true ∧ ∃ e, t.status = .ended (.error e)
    · obtain ⟨t, ht, hm, e, he⟩ := hmain
      obtain ⟨n, hn⟩ := hname' t ht
      exact ⟨w', _, .systems k1 k2 k3 g1 g2 (.main ht hm he hn)⟩
    · by_cases hpool : ∃ t ∈ ts', ∃ e, t.status = .ended (.error e)
      · obtain ⟨t, ht, e, he⟩ := hpool
        obtain ⟨n, hn⟩ := hname' t ht
        exact ⟨w', _, .systems k1 k2 k3 g1 g2 (.pool (fun t ht e hm he => hmain ⟨t, ht, hm, e, he⟩) ht he hn)⟩
      · exact ⟨w', _, .systems k1 k2 k3 g1 g2 (.ok fun t ht e he => hpool ⟨t, ht, e, he⟩)⟩

/-! ## Progress and termination -/

/-- What one step does to the task it concerns. -/
inductive Forward : Task W ε → Task W ε → Prop
  | start {t p} : t.status = .todo p → Forward { t with status := .going p } t
  | skip {t p} : t.status = .todo p → Forward { t with status := .skipped } t
  | act {t u k} (w : W) : t.status = .going (.act u k) → Forward { t with status := .going (k w) } t
  | finish {t r} : t.status = .going (.done r) → Forward { t with status := .ended r } t

theorem acc_over {t : Task W ε} (h : t.over) : Acc Forward t := by
  refine ⟨_, fun t' ht => ?_⟩
  cases ht with
  | start h1 => rcases h with h | ⟨_, h⟩ <;> (rw [h1] at h; cases h)
  | skip h1 => rcases h with h | ⟨_, h⟩ <;> (rw [h1] at h; cases h)
  | act _ h1 => rcases h with h | ⟨_, h⟩ <;> (rw [h1] at h; cases h)
  | finish h1 => rcases h with h | ⟨_, h⟩ <;> (rw [h1] at h; cases h)

theorem acc_going (p : Prog W ε) : ∀ t : Task W ε, t.status = .going p → Acc Forward t := by
  induction p with
  | done r =>
    intro t ht
    refine ⟨_, fun t' h => ?_⟩
    cases h with
    | start h1 => rw [h1] at ht; cases ht
    | skip h1 => rw [h1] at ht; cases ht
    | act _ h1 => rw [h1] at ht; cases ht
    | finish h1 => exact acc_over (.inr ⟨_, rfl⟩)
  | act u k ih =>
    intro t ht
    refine ⟨_, fun t' h => ?_⟩
    cases h with
    | start h1 => rw [h1] at ht; cases ht
    | skip h1 => rw [h1] at ht; cases ht
    | act w h1 => rw [h1] at ht; cases ht; exact ih w _ rfl
    | finish h1 => rw [h1] at ht; cases ht

theorem forward_acc (t : Task W ε) : Acc Forward t := by
  rcases hs : t.status with p | p | r | _
  · refine ⟨_, fun t' h => ?_⟩
    cases h with
    | start h1 => exact acc_going _ _ rfl
    | skip h1 => exact acc_over (.inl rfl)
    | act w h1 => rw [h1] at hs; cases hs
    | finish h1 => rw [h1] at hs; cases hs
  · exact acc_going p t hs
  · exact acc_over (.inr ⟨r, hs⟩)
  · exact acc_over (.inl hs)

/-- One element of the list moves forward. -/
inductive OneOf {α : Type} (R : α → α → Prop) : List α → List α → Prop
  | head {a b l} : R a b → OneOf R (a :: l) (b :: l)
  | tail {a l l'} : OneOf R l l' → OneOf R (a :: l) (a :: l')

theorem oneOf_acc {α : Type} {R : α → α → Prop} (hR : ∀ a, Acc R a) : ∀ l, Acc (OneOf R) l
  | [] => ⟨_, fun l h => by cases h⟩
  | a :: l => by
    have hl := oneOf_acc hR l
    induction hR a generalizing l with
    | intro a _ iha =>
      induction hl with
      | intro l hl' ihl =>
        refine ⟨_, fun m hm => ?_⟩
        cases hm with
        | head h => exact iha _ h l ⟨_, hl'⟩
        | tail h => exact ihl _ h

theorem oneOf_set {α : Type} {R : α → α → Prop} : ∀ {l : List α} {i : Nat} {a b : α}, l[i]? = some a → R b a → OneOf R (l.set i b) l
  | [], _, _, _, h, _ => by cases h
  | c :: l, 0, a, b, h, hr => by cases h; exact .head hr
  | c :: l, i + 1, a, b, h, hr => .tail (oneOf_set (l := l) h hr)

theorem step_forward {w w' : W} {ts ts' : List (Task W ε)} (h : Step w ts w' ts') : OneOf Forward ts' ts := by
  cases h with
  | start i p ht hp => exact oneOf_set ht (.start hp)
  | act i u k ht hp => exact oneOf_set ht (.act _ hp)
  | finish i r ht hp => exact oneOf_set ht (.finish hp)
  | skip i p e ht hp => exact oneOf_set ht (.skip hp)

theorem step_exists (w : W) {ts : List (Task W ε)} {t : Task W ε} (ht : t ∈ ts) (h : ¬ t.over) : ∃ w' ts', Step w ts w' ts' := by
  obtain ⟨i, hi⟩ := List.mem_iff_getElem?.mp ht
  rcases hs : t.status with p | p | r | _
  · exact ⟨_, _, .start i p hi hs⟩
  · cases p with
    | done r => exact ⟨_, _, .finish i r hi hs⟩
    | act u k => exact ⟨_, _, .act i u k hi hs⟩
  · exact absurd (.inr ⟨r, hs⟩) h
  · exact absurd (.inl hs) h

end Verif.Sched
