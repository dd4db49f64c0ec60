import Verif.Spec.IO
import Mathlib.Data.Nat.Digits.Defs
import Mathlib.Tactic.Tauto
/-! # C58: which texts are accepted as sizes -/
namespace Ublas.IO

/-- The number a sequence of decimal digits denotes. -/
def decimal (ds : List Char) : Nat := Nat.ofDigits 10 (ds.reverse.map fun c => c.toNat - 48)

theorem foldl_decimal (ds : List Char) : ds.foldl (fun a c => 10 * a + (c.toNat - 48)) 0 = decimal ds := by
  unfold decimal
  rw [Nat.ofDigits_eq_foldr, List.map_reverse, List.foldr_reverse, List.foldl_map]
  congr 1
  funext a c
  simp; omega

theorem takeWhile_all {p : Char → Bool} {a b : List Char} (ha : ∀ c ∈ a, p c = true) (hb : ∀ c, b.head? = some c → p c = false) : (a ++ b).takeWhile p = a ∧ (a ++ b).dropWhile p = b := by
  induction a with
  | nil =>
    cases b with
    | nil => exact ⟨rfl, rfl⟩
    | cons c b => simp [List.takeWhile_cons, List.dropWhile_cons, hb c rfl]
  | cons x a ih =>
    have := ih (fun c hc => ha c (List.mem_cons_of_mem _ hc))
    simp [List.takeWhile_cons, List.dropWhile_cons, ha x List.mem_cons_self, this.1, this.2]

theorem dropWhile_head {p : Char → Bool} (b : List Char) (c : Char) (h : (b.dropWhile p).head? = some c) : p c = false := by
  induction b with
  | nil => cases h
  | cons x b ih =>
    rw [List.dropWhile_cons] at h
    split at h
    · exact ih h
    · rename_i hx
      simp at h; subst h; simpa using hx

theorem mem_takeWhile {p : Char → Bool} {b : List Char} {c : Char} (h : c ∈ b.takeWhile p) : p c = true := by
  induction b with
  | nil => cases h
  | cons x b ih =>
    rw [List.takeWhile_cons] at h
    split at h
    · rename_i hx
      rcases List.mem_cons.1 h with h | h
      · subst h; exact hx
      · exact ih h
    · cases h

theorem digit_not_ws {c : Char} (h : isDigit c = true) : isWs c = false ∧ c ≠ '-' ∧ c ≠ '+' := by
  unfold isDigit at h
  simp only [Bool.and_eq_true, decide_eq_true_eq] at h
  have key : ∀ d : Char, d.toNat < 48 → c ≠ d := by rintro d hd rfl; omega
  refine ⟨?_, key _ (by decide), key _ (by decide)⟩
  unfold isWs
  simp [key ' ' (by decide), key '\t' (by decide), key '\n' (by decide), key '\x0b' (by decide), key '\x0c' (by decide), key '\x0d' (by decide)]

/-- **C58**, sizes: a size is read exactly when, after white space, an optional sign and at least one decimal digit follow and the digits denote a number below 2^64; the result is that number,
taken modulo 2^64 after a minus sign, and the rest of the input starts where the digits end. -/
theorem C58_size_text (b rest : List Char) (n : Nat) :
    readSize b = some (n, rest) ↔ ∃ ws sg ds, b = ws ++ sg ++ ds ++ rest ∧ (∀ c ∈ ws, isWs c = true) ∧ (sg = [] ∨ sg = ['+'] ∨ sg = ['-']) ∧ ds ≠ [] ∧ (∀ c ∈ ds, isDigit c = true) ∧
      (∀ c, rest.head? = some c → isDigit c = false) ∧ decimal ds < 2 ^ 64 ∧ (n : Int) % 2 ^ 64 = (if sg = ['-'] then - (decimal ds : Int) else decimal ds) % 2 ^ 64 ∧ n < 2 ^ 64 := by
  constructor
  · intro h
    unfold readSize at h
    simp only [foldl_decimal] at h
    split at h
    · cases h
    · rename_i hh
      push Not at hh
      simp only [Option.some.injEq, Prod.mk.injEq] at h
      obtain ⟨h1, h2⟩ := h
      have hb : b = b.takeWhile isWs ++ skipWs b := (List.takeWhile_append_dropWhile).symm
      obtain ⟨sg, e1, e2, e3⟩ : ∃ sg, skipWs b = sg ++ (sign (skipWs b)).2 ∧ (sg = [] ∨ sg = ['+'] ∨ sg = ['-']) ∧ ((sign (skipWs b)).1 = true ↔ sg = ['-']) := by
        cases skipWs b with
        | nil => exact ⟨[], rfl, .inl rfl, by simp [sign]⟩
        | cons c t =>
          unfold sign
          by_cases hc : c = '-'
          · subst hc; exact ⟨['-'], by simp, .inr (.inr rfl), by simp⟩
          · by_cases hc' : c = '+'
            · subst hc'; exact ⟨['+'], by simp, .inr (.inl rfl), by simp⟩
            · exact ⟨[], by simp [hc, hc'], .inl rfl, by simp [hc, hc']⟩
      refine ⟨b.takeWhile isWs, sg, (sign (skipWs b)).2.takeWhile isDigit, ?_, fun c hc => mem_takeWhile hc, e2, hh.1, fun c hc => mem_takeWhile hc, ?_, hh.2, ?_, ?_⟩
      · rw [← h2, List.append_assoc, List.takeWhile_append_dropWhile, List.append_assoc, ← e1]; exact hb
      · intro c hc; rw [← h2] at hc; exact dropWhile_head _ c hc
      · have := hh.2
        by_cases hs : sg = ['-']
        · rw [if_pos hs]; rw [if_pos (e3.2 hs)] at h1; omega
        · rw [if_neg hs]; rw [if_neg (fun h => hs (e3.1 h))] at h1; omega
      · have := hh.2
        rw [← h1]; split
        · exact Nat.mod_lt _ (by decide)
        · exact this
  · rintro ⟨ws, sg, ds, rfl, hw, hsg, hne, hd, hr, hlt, hn, hn'⟩
    obtain ⟨d, ds', rfl⟩ : ∃ d ds', ds = d :: ds' := by
      cases ds with
      | nil => exact absurd rfl hne
      | cons d ds' => exact ⟨d, ds', rfl⟩
    have hdd := digit_not_ws (hd d List.mem_cons_self)
    have e1 : skipWs (ws ++ sg ++ (d :: ds') ++ rest) = sg ++ (d :: ds') ++ rest := by
      have := (takeWhile_all (a := ws) (b := sg ++ (d :: ds') ++ rest) hw (by
        intro c hc
        rcases hsg with rfl | rfl | rfl
        · simp at hc; subst hc; exact hdd.1
        · simp at hc; subst hc; decide
        · simp at hc; subst hc; decide)).2
      unfold skipWs
      simpa only [List.append_assoc] using this
    have e2 : sign (sg ++ (d :: ds') ++ rest) = (decide (sg = ['-']), (d :: ds') ++ rest) := by
      rcases hsg with rfl | rfl | rfl
      · simp [sign, hdd.2.1, hdd.2.2]
      · simp [sign]
      · simp [sign]
    have e3 := takeWhile_all (a := d :: ds') (b := rest) hd hr
    unfold readSize
    rw [e1, e2]
    simp only [e3.1, e3.2, foldl_decimal]
    rw [if_neg (by push Not; exact ⟨by simp, hlt⟩)]
    congr 2
    by_cases hs : sg = ['-']
    · rw [if_pos hs] at hn; rw [if_pos (by simpa using hs)]; omega
    · rw [if_neg hs] at hn; rw [if_neg (by simpa using hs)]; omega

-- Non-vacuity and the boundary
example : readSize " +42]".toList = some (42, "]".toList) := by decide +kernel
example : readSize "18446744073709551616]".toList = none ∧ readSize "18446744073709551615]".toList = some (2 ^ 64 - 1, "]".toList) := by decide +kernel

end Ublas.IO
