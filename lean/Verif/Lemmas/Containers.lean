import Verif.ContainersSpec
import Mathlib.Data.List.Pairwise
import Mathlib.Data.List.Perm.Basic
import Mathlib.Order.Basic
import Mathlib.Tactic.Tauto
/-
Sorting, ordered and hashed sets on integers.
-/
set_option linter.unusedSectionVars false
namespace BigIntegerCpp

theorem Alg.onInts_bind {α β : Type} (H : Int → Int) (ρ : Nat → Int) (A : Alg α) (f : α → Alg β) :
    (A.bind f).onInts H ρ = (f (A.onInts H ρ)).onInts H ρ := by
  induction A with
  | done a => rfl
  | compare r i j k ih => exact ih _
  | hash i k ih => exact ih _

/-- Insertion, on integers. -/
theorem insertSorted_ints (H : Int → Int) (ρ : Nat → Int) (i : Nat) (js : List Nat) (hs : js.Pairwise fun i j => ρ i ≤ ρ j) :
    ((insertSorted i js).onInts H ρ).Perm (i :: js) ∧ ((insertSorted i js).onInts H ρ).Pairwise (fun i j => ρ i ≤ ρ j) ∧
      ∀ z, ((insertSorted i js).onInts H ρ).filter (fun l => ρ l = z) = js.filter (fun l => ρ l = z) ++ [i].filter (fun l => ρ l = z) := by
  induction js with
  | nil => exact ⟨List.Perm.refl _, List.pairwise_singleton _ _, fun z => rfl⟩
  | cons j js ih =>
    obtain ⟨h1, h2⟩ := List.pairwise_cons.1 hs
    show (((if decide (Rel.lt.Holds (ρ i) (ρ j)) = true then _ else _ : Alg (List Nat))).onInts H ρ).Perm (i :: j :: js) ∧
      ((if decide (Rel.lt.Holds (ρ i) (ρ j)) = true then _ else _ : Alg (List Nat)).onInts H ρ).Pairwise _ ∧
      ∀ z, ((if decide (Rel.lt.Holds (ρ i) (ρ j)) = true then _ else _ : Alg (List Nat)).onInts H ρ).filter _ = _
    by_cases h : ρ i < ρ j
    · rw [if_pos (decide_eq_true (show Rel.lt.Holds _ _ from h))]
      refine ⟨List.Perm.refl _, List.pairwise_cons.2 ⟨?_, hs⟩, fun z => ?_⟩
      · intro l hl
        rcases List.mem_cons.1 hl with rfl | hl
        · exact le_of_lt h
        · exact le_trans (le_of_lt h) (h1 l hl)
      · show (i :: j :: js).filter _ = _
        by_cases hz : ρ i = z
        · have hn : (j :: js).filter (fun l => ρ l = z) = [] := by
            rw [List.filter_eq_nil_iff]
            intro l hl
            have : ρ i < ρ l := by
              rcases List.mem_cons.1 hl with rfl | hl
              · exact h
              · exact lt_of_lt_of_le h (h1 l hl)
            simp only [decide_eq_true_eq]
            omega
          rw [List.filter_cons_of_pos (by simpa using hz), hn, List.filter_cons_of_pos (by simpa using hz)]
          rfl
        · rw [List.filter_cons_of_neg (by simpa using hz), show [i].filter (fun l => decide (ρ l = z)) = [] by
            rw [List.filter_cons_of_neg (by simpa using hz)]; rfl, List.append_nil]
    · rw [if_neg (fun e => h (show Rel.lt.Holds _ _ from of_decide_eq_true e)), Alg.onInts_bind]
      obtain ⟨k1, k2, k3⟩ := ih h2
      refine ⟨(List.Perm.cons j k1).trans (List.Perm.swap i j js), List.pairwise_cons.2 ⟨?_, k2⟩, fun z => ?_⟩
      · intro l hl
        rcases List.mem_cons.1 (k1.subset hl) with rfl | hl
        · omega
        · exact h1 l hl
      · show (j :: _).filter _ = _
        rw [List.filter_cons, List.filter_cons, k3 z]
        split_ifs <;> rfl

theorem sortAll_ints (H : Int → Int) (ρ : Nat → Int) (is acc : List Nat) (hs : acc.Pairwise fun i j => ρ i ≤ ρ j) :
    ((sortAll is acc).onInts H ρ).Perm (acc ++ is) ∧ ((sortAll is acc).onInts H ρ).Pairwise (fun i j => ρ i ≤ ρ j) ∧
      ∀ z, ((sortAll is acc).onInts H ρ).filter (fun l => ρ l = z) = (acc ++ is).filter (fun l => ρ l = z) := by
  induction is generalizing acc with
  | nil => rw [List.append_nil]; exact ⟨List.Perm.refl _, hs, fun z => rfl⟩
  | cons i is ih =>
    obtain ⟨k1, k2, k3⟩ := insertSorted_ints H ρ i acc hs
    rw [show sortAll (i :: is) acc = (insertSorted i acc).bind (sortAll is) from rfl, Alg.onInts_bind]
    obtain ⟨j1, j2, j3⟩ := ih _ k2
    refine ⟨j1.trans ?_, j2, fun z => ?_⟩
    · refine (List.Perm.append_right is k1).trans ?_
      exact (List.perm_middle (a := i) (l₁ := acc) (l₂ := is)).symm
    · rw [j3 z, List.filter_append, k3 z, ← List.filter_append, ← List.filter_append, List.append_assoc]
      rfl

/-- Insertion of a key, on integers. -/
theorem insertKey_ints (H : Int → Int) (ρ : Nat → Int) (i : Nat) (js : List Nat) (hs : js.Pairwise fun i j => ρ i < ρ j) :
    ((insertKey i js).onInts H ρ).Pairwise (fun i j => ρ i < ρ j) ∧ (∀ l ∈ (insertKey i js).onInts H ρ, l ∈ i :: js) ∧
      ∀ l ∈ i :: js, ∃ l' ∈ (insertKey i js).onInts H ρ, ρ l' = ρ l := by
  induction js with
  | nil => exact ⟨List.pairwise_singleton _ _, fun _ h => h, fun l h => ⟨l, h, rfl⟩⟩
  | cons j js ih =>
    obtain ⟨h1, h2⟩ := List.pairwise_cons.1 hs
    rw [show insertKey i (j :: js) = .compare .lt i j fun b => if b then .done (i :: j :: js) else
      .compare .lt j i fun b => if b then (insertKey i js).bind fun r => .done (j :: r) else .done (j :: js) from rfl]
    rw [Alg.onInts]
    by_cases h : ρ i < ρ j
    · rw [if_pos (decide_eq_true (show Rel.lt.Holds _ _ from h))]
      refine ⟨List.pairwise_cons.2 ⟨?_, hs⟩, fun _ h => h, fun l h => ⟨l, h, rfl⟩⟩
      intro l hl
      rcases List.mem_cons.1 hl with rfl | hl
      · exact h
      · exact lt_trans h (h1 l hl)
    · rw [if_neg (fun e => h (show Rel.lt.Holds _ _ from of_decide_eq_true e)), Alg.onInts]
      by_cases h' : ρ j < ρ i
      · rw [if_pos (decide_eq_true (show Rel.lt.Holds _ _ from h')), Alg.onInts_bind]
        obtain ⟨k1, k2, k3⟩ := ih h2
        refine ⟨List.pairwise_cons.2 ⟨?_, k1⟩, ?_, ?_⟩
        · intro l hl
          rcases List.mem_cons.1 (k2 l hl) with rfl | hl
          · exact h'
          · exact h1 l hl
        · intro l hl
          rcases List.mem_cons.1 hl with rfl | hl
          · exact List.mem_cons_of_mem _ (List.mem_cons_self ..)
          · rcases List.mem_cons.1 (k2 l hl) with rfl | hl
            · exact List.mem_cons_self ..
            · exact List.mem_cons_of_mem _ (List.mem_cons_of_mem _ hl)
        · intro l hl
          rcases List.mem_cons.1 hl with rfl | hl
          · obtain ⟨l', m, e⟩ := k3 l (List.mem_cons_self ..)
            exact ⟨l', List.mem_cons_of_mem _ m, e⟩
          · rcases List.mem_cons.1 hl with rfl | hl
            · exact ⟨l, List.mem_cons_self .., rfl⟩
            · obtain ⟨l', m, e⟩ := k3 l (List.mem_cons_of_mem _ hl)
              exact ⟨l', List.mem_cons_of_mem _ m, e⟩
      · rw [if_neg (fun e => h' (show Rel.lt.Holds _ _ from of_decide_eq_true e))]
        refine ⟨hs, fun l hl => List.mem_cons_of_mem _ hl, fun l hl => ?_⟩
        rcases List.mem_cons.1 hl with rfl | hl
        · exact ⟨j, List.mem_cons_self .., by omega⟩
        · exact ⟨l, hl, rfl⟩

theorem orderedSet_ints (H : Int → Int) (ρ : Nat → Int) (is acc : List Nat) (hs : acc.Pairwise fun i j => ρ i < ρ j) :
    ((orderedSet is acc).onInts H ρ).Pairwise (fun i j => ρ i < ρ j) ∧ (∀ l ∈ (orderedSet is acc).onInts H ρ, l ∈ acc ++ is) ∧
      ∀ l ∈ acc ++ is, ∃ l' ∈ (orderedSet is acc).onInts H ρ, ρ l' = ρ l := by
  induction is generalizing acc with
  | nil => rw [List.append_nil]; exact ⟨hs, fun _ h => h, fun l h => ⟨l, h, rfl⟩⟩
  | cons i is ih =>
    obtain ⟨k1, k2, k3⟩ := insertKey_ints H ρ i acc hs
    rw [show orderedSet (i :: is) acc = (insertKey i acc).bind (orderedSet is) from rfl, Alg.onInts_bind]
    obtain ⟨j1, j2, j3⟩ := ih _ k1
    refine ⟨j1, fun l hl => ?_, fun l hl => ?_⟩
    · rcases List.mem_append.1 (j2 l hl) with h | h
      · rcases List.mem_cons.1 (k2 l h) with rfl | h
        · exact List.mem_append_right _ (List.mem_cons_self ..)
        · exact List.mem_append_left _ h
      · exact List.mem_append_right _ (List.mem_cons_of_mem _ h)
    · have hl : l ∈ i :: acc ∨ l ∈ is := by
        rcases List.mem_append.1 hl with h | h
        · exact .inl (List.mem_cons_of_mem _ h)
        · rcases List.mem_cons.1 h with rfl | h
          · exact .inl (List.mem_cons_self ..)
          · exact .inr h
      rcases hl with hl | hl
      · obtain ⟨l', m, e⟩ := k3 l hl
        obtain ⟨l'', m', e'⟩ := j3 l' (List.mem_append_left _ m)
        exact ⟨l'', m', e'.trans e⟩
      · exact j3 l (List.mem_append_right _ hl)

/-- Looking up a key, on integers: found exactly if an entry of the same hash is the same integer. -/
theorem findKey_ints (H : Int → Int) (ρ : Nat → Int) (h : Int) (i : Nat) (es : List (Int × Nat)) :
    (findKey h i es).onInts H ρ = decide (∃ e ∈ es, e.1 = h ∧ ρ e.2 = ρ i) := by
  induction es with
  | nil => simp [findKey, Alg.onInts]
  | cons e es ih =>
    obtain ⟨g, j⟩ := e
    rw [findKey]
    by_cases hg : g = h
    · rw [if_pos hg, Alg.onInts]
      by_cases hr : ρ j = ρ i
      · rw [if_pos (decide_eq_true (show Rel.eq.Holds _ _ from hr)), Alg.onInts, eq_comm, decide_eq_true_iff]
        exact ⟨(g, j), List.mem_cons_self .., hg, hr⟩
      · rw [if_neg (fun e => hr (show Rel.eq.Holds _ _ from of_decide_eq_true e)), ih, decide_eq_decide]
        simp [hr]
    · rw [if_neg hg, ih, decide_eq_decide]
      simp [hg]

theorem hashedSet_ints (H : Int → Int) (ρ : Nat → Int) (is : List Nat) (es : List (Int × Nat)) (he : ∀ e ∈ es, e.1 = H (ρ e.2))
    (hn : ((es.map Prod.snd).map ρ).Nodup) :
    (((hashedSet is es).onInts H ρ).map ρ).Nodup ∧ ((hashedSet is es).onInts H ρ).Sublist (es.map Prod.snd ++ is) ∧
      ∀ l ∈ es.map Prod.snd ++ is, ∃ l' ∈ (hashedSet is es).onInts H ρ, ρ l' = ρ l := by
  induction is generalizing es with
  | nil => rw [List.append_nil]; exact ⟨hn, List.Sublist.refl _, fun l h => ⟨l, h, rfl⟩⟩
  | cons i is ih =>
    rw [show hashedSet (i :: is) es = .hash i fun h => (findKey h i es).bind fun b => if b then hashedSet is es else
      hashedSet is (es ++ [(h, i)]) from rfl, Alg.onInts, Alg.onInts_bind, findKey_ints]
    by_cases hf : ∃ e ∈ es, e.1 = H (ρ i) ∧ ρ e.2 = ρ i
    · rw [if_pos (decide_eq_true hf)]
      obtain ⟨j1, j2, j3⟩ := ih es he hn
      refine ⟨j1, j2.trans ((List.sublist_cons_self i is).append_left _), fun l hl => ?_⟩
      rcases List.mem_append.1 hl with h | h
      · exact j3 l (List.mem_append_left _ h)
      · rcases List.mem_cons.1 h with rfl | h
        · obtain ⟨e, m, -, r⟩ := hf
          obtain ⟨l', m', r'⟩ := j3 e.2 (List.mem_append_left _ (List.mem_map_of_mem m))
          exact ⟨l', m', r'.trans r⟩
        · exact j3 l (List.mem_append_right _ h)
    · rw [if_neg (by simpa using hf)]
      have hm : (es ++ [(H (ρ i), i)]).map Prod.snd = es.map Prod.snd ++ [i] := by simp
      obtain ⟨j1, j2, j3⟩ := ih (es ++ [(H (ρ i), i)])
        (by
          intro e h
          rcases List.mem_append.1 h with h | h
          · exact he e h
          · rw [List.mem_singleton.1 h])
        (by
          rw [hm, List.map_append, List.nodup_append]
          refine ⟨hn, by simp, ?_⟩
          intro z hz w hw hzw
          obtain ⟨l, hl, rfl⟩ := List.mem_map.1 hz
          obtain ⟨e, he', rfl⟩ := List.mem_map.1 hl
          rw [List.map_singleton, List.mem_singleton] at hw
          exact hf ⟨e, he', by rw [he e he', hzw, hw], hzw.trans hw⟩)
      rw [hm, List.append_assoc] at j2 j3
      exact ⟨j1, j2, j3⟩

end BigIntegerCpp
