import Verif.Lemmas.GcdStuck
import Verif.GcdSpec
/-
The loop of the greatest common divisor on pairs that reach a Lehmer step after some steps of
Euclid's algorithm.
-/
set_option linter.unusedSectionVars false
set_option linter.unnecessarySeqFocus false
namespace BigIntegerCpp
variable [Cfg]

theorem wlen_wordCount {x : Nat} (h : x ≠ 0) : WLen (wordCount x) x := by
  have h1 := Nat.log2_self_le h
  have h2 := @Nat.lt_log2_self x
  unfold wordCount
  generalize Nat.log2 x = k at *
  refine ⟨?_, .inr ?_⟩
  · rw [base_pow]
    exact lt_of_lt_of_le h2 (Nat.pow_le_pow_right (by decide) (by omega))
  · rw [Nat.add_sub_cancel, base_pow]
    exact le_trans (Nat.pow_le_pow_right (by decide) (by omega)) h1

theorem WLen.wordCount {n x : Nat} (hw : WLen n x) (h : x ≠ 0) : n = wordCount x := hw.unique (wlen_wordCount h)

theorem gcdLoop_never_after {X Y : Nat} (hS : LehmerSame X Y) (hle : Y ≤ X) (fuel : Nat) {N M : Nat} {xb yb : BitsBuffer}
    (hx : Buf N xb X) (hy : Buf M yb Y) (r : BitsBuffer × BitsBuffer) : gcdLoop fuel xb yb ≠ .ok r := by
  unfold LehmerSame at hS
  induction hS generalizing fuel N M xb yb with
  | here x y h hE hP =>
    have w1 := wlen_wordCount (x := x) (by omega)
    have w2 := wlen_wordCount (x := y) (by omega)
    rw [← hP] at w2
    exact (gcdLoop_never hle h w1 w2 hE fuel).1 _ _ _ _ _ hx hy
  | step x y h hs hrest ih =>
    cases fuel with
    | zero => rw [gcdLoop]; exact nofun
    | succ fuel =>
      have h2 := hy.len_gt_two.2 h
      obtain ⟨b, e, k⟩ := reduceBy_spec hx hy (by omega)
      rw [gcdLoop, if_pos (by omega), extractDigits_spec hx hy (by omega) hle, Res.ok_bind]
      dsimp only
      rw [lehmerGuess_euclid (log2_top x) hs, Res.ok_bind]
      dsimp only
      rw [if_pos (by rfl), e, Res.ok_bind]
      exact ih (le_of_lt (Nat.mod_lt x (by omega))) fuel hy k

theorem EuclidThen.ge {P : Nat → Nat → Prop} {x y : Nat} (h : EuclidThen P x y) : 2 ^ 64 ≤ y := by
  cases h <;> assumption

theorem gcd_never_after {a b : BigInt} {x y : Int} (ha : a.Denotes x) (hb : b.Denotes y) (hla : a.bits.length < 2147483648)
    (hlb : b.bits.length < 2147483648) (hS : LehmerSame (max x.natAbs y.natAbs) (min x.natAbs y.natAbs)) (fuel : Nat)
    (r : BigInt) : BigInt.gcd fuel a b ≠ .ok r := by
  have h64 := EuclidThen.ge hS
  obtain ⟨N, M, lb, rb, k, b1, b2, e⟩ := gcd_big ha hb hla hlb (by omega) (by omega) fuel
  rw [e]
  rcases h : gcdLoop fuel lb rb with v | _ | _ | _ | _
  · exact absurd h (gcdLoop_never_after hS (Nat.le_trans (Nat.min_le_left _ _) (Nat.le_max_left _ _)) fuel b1 b2 v)
  all_goals exact nofun

theorem gcd_cases (y : Nat) : ∀ x, EuclidOnly x y ∨ LehmerSame x y ∨ LehmerDifferent x y := by
  induction y using Nat.strongRecOn with
  | ind y ih =>
  intro x
  by_cases h : y < 2 ^ 64
  · exact .inl (.small _ _ h)
  by_cases hE : EuclidStep x y
  · rcases ih (x % y) (Nat.mod_lt _ (by omega)) y with h' | h' | h'
    · exact .inl (.step _ _ (by omega) hE h')
    · exact .inr (.inl (.step _ _ (by omega) hE h'))
    · exact .inr (.inr (.step _ _ (by omega) hE h'))
  · by_cases hw : wordCount x = wordCount y
    · exact .inr (.inl (.here _ _ (by omega) hE hw))
    · exact .inr (.inr (.here _ _ (by omega) hE hw))

theorem EuclidThen.not_only {P : Nat → Nat → Prop} {x y : Nat} (h : EuclidThen P x y) : ¬ EuclidOnly x y := by
  induction h with
  | here x y h hE hP => rintro (⟨_, _, h'⟩ | ⟨_, _, _, h', _⟩) <;> [omega; exact hE h']
  | step x y h hE hr ih => rintro (⟨_, _, h'⟩ | ⟨_, _, _, _, h'⟩) <;> [omega; exact ih h']

theorem EuclidThen.excl {P Q : Nat → Nat → Prop} (hPQ : ∀ x y, P x y → ¬ Q x y) {x y : Nat} (h : EuclidThen P x y) :
    ¬ EuclidThen Q x y := by
  induction h with
  | here x y h hE hP => rintro (⟨_, _, _, _, h'⟩ | ⟨_, _, _, h', _⟩) <;> [exact hPQ _ _ hP h'; exact hE h']
  | step x y h hE hr ih => rintro (⟨_, _, _, h', _⟩ | ⟨_, _, _, _, h'⟩) <;> [exact h' hE; exact ih h']

end BigIntegerCpp
