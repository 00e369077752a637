import Verif.Lemmas.EntitiesSpawn

/-! `clear` under the free-list invariant, when no slot has used up its generations. -/
namespace Verif.Entities

theorem clearLoop_ok : ∀ (n : Nat) (d : List EId) (last : Nat), n ≤ d.length →
    d.length ≤ EId.maxIndex → last < EId.INDEX_MASK →
    (∀ i x, i < n → d[i]? = some x → x.gen < 65533) →
    ∃ d', clearLoop d last n = .ok (d', (d.take n).reverse) ∧ d'.length = d.length ∧
      ∀ i, d'[i]? = if i < n then
          (d[i]?).map (fun x => ⟨if i + 1 = n then last else i + 1, x.gen + 1⟩)
        else d[i]? := by
  intro n
  induction n with
  | zero =>
    intro d last _ _ _ _
    exact ⟨d, rfl, rfl, by intro i; rw [if_neg (by omega)]⟩
  | succ n ih =>
    intro d last hn hcap hlast hgen
    have hlt : n < d.length := by omega
    obtain ⟨x, hx⟩ : ∃ x, d[n]? = some x := ⟨_, List.getElem?_eq_getElem hlt⟩
    have hg := hgen n x (by omega) hx
    have hb : x.bumpGen = some ⟨x.idx, x.gen + 1⟩ := by
      unfold EId.bumpGen; rw [if_pos]; exact hg
    have hmask := maxIndex_lt
    obtain ⟨d', h1, h2, h3⟩ := ih (d.set n ⟨last, x.gen + 1⟩) n (by simp; omega) (by simpa using hcap)
      (by omega) (by
        intro i y hi hy
        rw [List.getElem?_set_ne (by omega)] at hy
        exact hgen i y (by omega) hy)
    refine ⟨d', ?_, by simpa using h2, ?_⟩
    · unfold clearLoop getC
      rw [hx]
      simp only [bind, Except.bind, hb, setIndex_ok hlast, h1]
      congr 2
      rw [List.take_set_of_le (Nat.le_refl n)]
      rw [List.take_add_one, hx]
      simp
    · intro i
      rw [h3 i]
      by_cases hi : i < n
      · rw [if_pos hi, if_pos (show i < n + 1 by omega), List.getElem?_set_ne (by omega)]
        have : ¬ i + 1 = n + 1 := by omega
        simp only [if_neg this]
        congr 1
        funext y
        by_cases hin : i + 1 = n
        · rw [if_pos hin, hin]
        · rw [if_neg hin]
      · rw [if_neg hi]
        by_cases hin : n = i
        · subst hin
          rw [List.getElem?_set_self hlt, if_pos (by omega), hx]; simp
        · rw [List.getElem?_set_ne hin, if_neg (by omega)]

/-- No slot has used up its generations. -/
def NotExhausted (s : Entities) : Prop := ∀ e ∈ s.data, e.gen < 65533

instance (s : Entities) : Decidable s.NotExhausted := inferInstanceAs (Decidable (∀ _ ∈ _, _))

/-- What `clear` leaves behind. -/
structure Cleared (s s' : Entities) : Prop where
  inv : Inv s' (List.range s.data.length)
  gen : ∀ i, s'.genAt i = (s.genAt i).map (· + 1)
  len : s'.data.length = s.data.length
  hook : s'.hook = s.hook
  log : s'.log = if s.hook then s.log ++ s.data.reverse else s.log

theorem findIdx?_head {α} {p : α → Bool} {a : α} {l : List α} (h : p a = true) :
    (a :: l).findIdx? p = some 0 := by
  rw [List.findIdx?_cons, h]; rfl

theorem clear_ok {s : Entities} {Q : List Nat} (h : Inv s Q) (he : s.NotExhausted) :
    ∃ s', clear s = .ok s' ∧ Cleared s s' := by
  unfold clear
  by_cases hem : s.data = []
  · refine ⟨s, by rw [hem]; rfl, ?_⟩
    have hQ : Q = [] := by
      cases Q with
      | nil => rfl
      | cons a Q => have := h.mem_lt (q := a) List.mem_cons_self; rw [hem] at this; simp at this
    subst hQ
    refine ⟨by rw [hem]; exact h, ?_, rfl, rfl, by rw [hem]; simp⟩
    intro i; unfold genAt; rw [hem]; simp
  · have hne : s.data.isEmpty = false := by simpa using hem
    have hlen : 0 < s.data.length := List.length_pos_iff.2 hem
    have hcap := h.cap
    obtain ⟨d', h1, h2, h3⟩ := clearLoop_ok s.data.length s.data EId.maxIndex (Nat.le_refl _)
      (Nat.le_of_lt hcap) maxIndex_lt (fun i x _ hx => he x (List.mem_of_getElem? hx))
    rw [List.take_length] at h1
    have hgenlt : ∀ x ∈ d', x.gen < EId.MAX_GEN := by
      intro x hx
      obtain ⟨i, hi⟩ := List.getElem?_of_mem hx
      rw [h3] at hi
      have hi' := lt_of_getElem?_some (show d'[i]? = some x by rw [h3]; exact hi)
      rw [if_pos (by omega)] at hi
      rcases ho : s.data[i]? with _ | o
      · rw [ho] at hi; cases hi
      · rw [ho] at hi
        have := he o (List.mem_of_getElem? ho)
        cases hi
        simp only [EId.MAX_GEN]; omega
    have hd' : d' ≠ [] := by intro e; rw [e] at h2; simp at h2; omega
    have hf1 : d'.findIdx? (fun id => decide (id.gen < EId.MAX_GEN)) = some 0 := by
      obtain ⟨a, l, rfl⟩ := List.exists_cons_of_ne_nil hd'
      exact findIdx?_head (by simpa using hgenlt a (by simp))
    have hf2 : d'.reverse.findIdx? (fun id => decide (id.gen < EId.MAX_GEN)) = some 0 := by
      have : d'.reverse ≠ [] := by simpa using hd'
      obtain ⟨a, l, hal⟩ := List.exists_cons_of_ne_nil this
      rw [hal]
      refine findIdx?_head ?_
      have : a ∈ d' := by rw [← List.mem_reverse, hal]; simp
      simpa using hgenlt a this
    refine ⟨{ s with
        data := d'
        list := some (d'.length - 0 - 1, 0)
        log := if s.hook then s.log ++ s.data.reverse else s.log }, ?_, ?inv, ?gen, ?len, ?hook, ?log⟩
    · rw [hne]
      simp only [Bool.false_eq_true, if_false, if_neg (show ¬ s.data.length = EId.maxIndex by omega),
        bind, Except.bind, h1, hf1, hf2]
    case len => simpa using h2
    case hook => rfl
    case log => rfl
    case gen =>
      intro i
      unfold genAt; simp only
      rw [h3]
      split
      · rcases s.data[i]? with _ | o <;> rfl
      · rename_i hi
        rw [List.getElem?_eq_none (by omega)]; rfl
    case inv =>
      refine ⟨?_, List.nodup_range, ?_, ?_, by simp only; omega, ?_⟩
      · simp only
        obtain ⟨k, hk⟩ : ∃ k, s.data.length = k + 1 := ⟨s.data.length - 1, by omega⟩
        rw [hk, List.range_succ, listOf_append_singleton, h2, hk]
        congr 2
        cases k with
        | zero => rfl
        | succ k => rw [List.range_succ_eq_map]; rfl
      · rw [List.range_eq_range']
        apply Seg_range'
        intro i _ hi
        have hi' : i < s.data.length := by omega
        obtain ⟨x, hx⟩ : ∃ x, s.data[i]? = some x := ⟨_, List.getElem?_eq_getElem hi'⟩
        refine ⟨x.gen + 1, ?_⟩
        simp only
        rw [h3, if_pos hi', hx, Nat.zero_add]
        rfl
      · intro i x hx hi
        exfalso
        apply hi
        rw [List.mem_range]
        have := lt_of_getElem?_some hx
        simp only at this; omega
      · intro i x hx
        have := hgenlt x (List.mem_of_getElem? hx)
        unfold EId.MAX_GEN at this; omega

end Verif.Entities
