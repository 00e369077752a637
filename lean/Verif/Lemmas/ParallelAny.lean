import Verif.Lemmas.ParallelRun

/-!
# Parallel runs without assumptions on systems
-/
namespace Verif.Sched

variable {W ε : Type} {b : Batches W ε} {progs : List (Prog W ε)} {names : List Label} {nm : WSys W ε → Label}
  {pr : WSys W ε → Prog W ε}

variable {progOf : Nat → Prog W ε} {nameOf : Nat → Label}

theorem atOnce_of_batch {x : Option Nat × List Nat} {r : Option Nat × List (Option Nat)} {L : List (WSys W ε)}
    (h : Holds b progs names x r (fun s => nameOf s.typeId) (fun s => progOf s.typeId) L) {w w' : W} {res}
    (hr : RunBatch b progs names x r w w' res) : AtOnce progOf nameOf L w w' res := by
  have hb := batch_any h w
  rcases ha : askAll L w with ⟨w1, ⟨s, e⟩ | flags⟩
  · rw [ha] at hb
    dsimp only at hb
    cases hr with
    | condition h1 => rw [hb] at h1; cases h1; exact .refused ha
    | systems h1 => rw [hb] at h1; cases h1
  · rw [ha] at hb
    dsimp only at hb
    obtain ⟨m, fs, sp, ts, k1, k2, k3, k4⟩ := hb
    cases hr with
    | condition h1 => rw [k1] at h1; cases h1
    | systems h1 hs ht hsteps hover hres =>
      rename_i w1' m' flags' s' ts0 ts'
      rw [k1] at h1
      cases h1
      rw [k2] at hs
      cases hs
      rw [k3] at ht
      cases ht
      have hstat : ts.map (·.status) = (chosen L flags).map fun s => .todo (progOf s.typeId) := by
        have := congrArg (List.map Prod.snd) k4
        rw [List.map_map, List.map_map] at this
        exact this
      have hkept : Kept names ts ts' := steps_kept hsteps
      have hnames : ts'.map (fun t => names[t.index]?) = (chosen L flags).map fun s => some (nameOf s.typeId) := by
        have := congrArg (List.map Prod.fst) k4
        rw [List.map_map, List.map_map] at this
        rw [hkept.names]
        exact this
      have nosk : ∀ t ∈ ts, t.status ≠ .skipped := by
        intro t ht hsk
        have hm : t.status ∈ ts.map (·.status) := List.mem_map_of_mem (f := fun t : Task W ε => t.status) ht
        rw [hstat, hsk] at hm
        obtain ⟨_, _, h⟩ := List.mem_map.mp hm
        cases h
      have found : ∀ {t e n}, t ∈ ts' → t.status = .ended (.error e) → names[t.index]? = some n →
          AtOnce progOf nameOf L w w' (.error (.run n e)) := by
        intro t e n ht he hn
        obtain ⟨i, hi⟩ := List.mem_iff_getElem?.mp ht
        have hnm := congrArg (fun l => l[i]?) hnames
        simp only [List.getElem?_map, hi, Option.map_some] at hnm
        cases hs : (chosen L flags)[i]? with
        | none => rw [hs] at hnm; cases hnm
        | some s =>
          rw [hs] at hnm
          have hnm' := Option.some.inj hnm
          rw [hn] at hnm'
          cases hnm'
          exact .failed ha hstat hsteps hover hs hi he
      cases hres with
      | ok hne =>
        refine .ok ha hstat hsteps ?_
        intro t ht
        rcases hover t ht with hsk | ⟨rr, hrr⟩
        · rcases hkept.skipped ⟨t, ht, hsk⟩ with ⟨u, hu, hus⟩ | ⟨u, hu, e, he⟩
          · exact absurd hus (nosk u hu)
          · exact absurd he (hne u hu e)
        · rcases rr with e | ⟨⟩
          · exact absurd hrr (hne t ht e)
          · exact hrr
      | main ht _ he hn => exact found ht he hn
      | pool _ ht he hn => exact found ht he hn

/-- The stored batches hold the groups of the plan. -/
inductive HoldAll (b : Batches W ε) (progs : List (Prog W ε)) (names : List Label) (nm : WSys W ε → Label)
    (pr : WSys W ε → Prog W ε) :
    List ((Option Nat × List Nat) × (Option Nat × List (Option Nat))) → List (List (WSys W ε)) → Prop
  | nil : HoldAll b progs names nm pr [] []
  | cons {x xs L Ls} : Holds b progs names x.1 x.2 nm pr L → HoldAll b progs names nm pr xs Ls →
      HoldAll b progs names nm pr (x :: xs) (L :: Ls)

theorem inTurn_of_par {xs Ls} (h : HoldAll b progs names (fun s => nameOf s.typeId) (fun s => progOf s.typeId) xs Ls) :
    ∀ {w w' res}, RunPar b progs names xs w w' res → InTurn progOf nameOf Ls w w' res := by
  induction h with
  | nil => intro w w' res hr; cases hr; exact .nil
  | cons h1 _ ih =>
    intro w w' res hr
    cases hr with
    | stop hb => exact .stop (atOnce_of_batch h1 hb)
    | next hb hr => exact .next (atOnce_of_batch h1 hb) (ih hr)

theorem par_total {xs Ls} (h : HoldAll b progs names nm pr xs Ls) : ∀ w0, ∃ w' res, RunPar b progs names xs w0 w' res := by
  induction h with
  | nil => intro w0; exact ⟨w0, _, .nil⟩
  | cons h1 _ ih =>
    intro w0
    obtain ⟨w1, r, hb⟩ := batch_total h1 w0
    rcases r with e | u
    · exact ⟨w1, _, .stop hb⟩
    · obtain ⟨w', res, hr⟩ := ih w1
      exact ⟨w', res, .next hb hr⟩

theorem holdAll : ∀ {xs : List ((Option Nat × List Nat) × (Option Nat × List (Option Nat)))} {Ms : List (List (WSys W ε))},
    xs.length = Ms.length →
    (∀ (k : Nat) x M, xs[k]? = some x → Ms[k]? = some M → ∃ L, Holds b progs names x.1 x.2 nm pr L ∧ L.Perm M) →
    ∃ Ls, HoldAll b progs names nm pr xs Ls ∧ Ls.length = Ms.length
      ∧ ∀ (k : Nat) L M, Ls[k]? = some L → Ms[k]? = some M → L.Perm M
  | [], [], _, _ => ⟨[], .nil, rfl, fun k L M h => by cases h⟩
  | [], _ :: _, h, _ => by cases h
  | _ :: _, [], h, _ => by cases h
  | x :: xs, M :: Ms, hl, h => by
    obtain ⟨L, h1, h2⟩ := h 0 x M rfl rfl
    obtain ⟨Ls, g1, g2, g3⟩ := holdAll (xs := xs) (Ms := Ms) (by simpa using hl) (fun k x M hx hM => h (k + 1) x M hx hM)
    refine ⟨L :: Ls, .cons h1 g1, by simp [g2], ?_⟩
    intro k L' M' hL hM
    cases k with
    | zero => cases hL; cases hM; exact h2
    | succ k => exact g3 k L' M' hL hM

theorem realises_holdAll {w : Workload W ε} {plan : List (Nat × Nat)}
    (h : Realises (names.zip progs) (fun s => (nameOf s.typeId, progOf s.typeId)) b w plan) :
    ∃ Ls, HoldAll b progs names (fun s => nameOf s.typeId) (fun s => progOf s.typeId) (b.parallel.zip b.parallelRunIf) Ls
      ∧ Ls.length = b.parallel.length ∧ ∀ (k : Nat) L, Ls[k]? = some L → L.Perm (w.group plan k) := by
  obtain ⟨Ls, g1, g2, g3⟩ := holdAll (b := b) (progs := progs) (names := names) (nm := fun s => nameOf s.typeId)
    (pr := fun s => progOf s.typeId) (xs := b.parallel.zip b.parallelRunIf)
    (Ms := (List.range b.parallel.length).map (w.group plan)) (by simp [h.lens]) (by
    intro k x M hx hM
    obtain ⟨hx1, hx2⟩ := List.getElem?_zip_eq_some.mp hx
    have hk : k < b.parallel.length := (List.getElem?_eq_some_iff.mp hx1).1
    rw [List.getElem?_map, List.getElem?_range hk] at hM
    cases hM
    obtain ⟨jobs, hj, hperm⟩ := h.par k hk
    have hj' : jobs = b.batchJobs (names.zip progs) x.1 x.2 := by
      unfold Batches.parJobs at hj
      rw [List.getElem?_map, hx] at hj
      exact (Option.some.inj hj).symm
    have hat : ((plan.filter fun p => p.2 == k).map fun p => w.at (fun s => (nameOf s.typeId, progOf s.typeId)) p.1)
        = (w.group plan k).map fun s => some ((nameOf s.typeId, progOf s.typeId), s.runIf) := by
      have hall : ∀ p ∈ plan.filter (fun p => p.2 == k), ∃ y, w.systems[p.1]? = some y := by
        intro p hp
        obtain ⟨y, hy⟩ := at_some h.schedule (fun s => s) (List.mem_filter.mp hp).1
        unfold Workload.at at hy
        cases hz : w.systems[p.1]? with
        | none => rw [hz] at hy; cases hy
        | some z => exact ⟨z, rfl⟩
      have := congrArg (List.map (Option.map fun s => ((nameOf s.typeId, progOf s.typeId), s.runIf)))
        (filterMap_some _ _ hall)
      rw [List.map_map, List.map_map] at this
      exact this
    rw [hat, hj'] at hperm
    obtain ⟨L, hL, hjL⟩ := perm_map _ _ _ hperm
    obtain ⟨f1, f2⟩ := h.fit k x.1 x.2 hx1 hx2
    exact ⟨L, ⟨hjL, f1, f2⟩, hL⟩)
  have hlen : Ls.length = b.parallel.length := by simpa using g2
  refine ⟨Ls, g1, hlen, ?_⟩
  intro k L hL
  have hk : k < b.parallel.length := by rw [← hlen]; exact (List.getElem?_eq_some_iff.mp hL).1
  exact g3 k L _ hL (by rw [List.getElem?_map, List.getElem?_range hk]; rfl)

end Verif.Sched
