import Verif.Spec.Json
import Verif.Props.Version

/-!
# C128: what is written in the info file of a set is read back
-/

namespace Punx
open Spec
namespace JVal

/-! ## characters -/

theorem unhex_hexDigit {n : Nat} (h : n < 16) : unhex (hexDigit n) = some n := by
  have : ∀ i : Fin 16, unhex (hexDigit i.1) = some i.1 := by decide
  exact this ⟨n, h⟩

theorem unhex4_digits {n : Nat} (h : n < 65536) :
    unhex4 (hexDigit (n / 4096 % 16)) (hexDigit (n / 256 % 16)) (hexDigit (n / 16 % 16))
      (hexDigit (n % 16)) = some n := by
  rw [unhex4, unhex_hexDigit (by omega), unhex_hexDigit (by omega), unhex_hexDigit (by omega),
    unhex_hexDigit (by omega)]
  show some (n / 4096 % 16 * 4096 + n / 256 % 16 * 256 + n / 16 % 16 * 16 + n % 16) = some n
  congr 1; omega

theorem scan_quote (t : Str) : scan ('"' :: t) = some ([], t) := by rw [scan.eq_def]; rfl

theorem scan_plain (c : Char) (h1 : c ≠ '"') (h2 : c ≠ '\\') (h3 : ¬ c.toNat < 32) (t : Str) :
    scan (c :: t) = (scan t).map fun x => (.char c :: x.1, x.2) := by
  rw [scan.eq_def]
  simp only [h1, h2, h3, if_false]
  cases scan t <;> rfl

theorem scan_short (e x : Char) (he : e ≠ 'u') (hx : unescape e = some x) (t : Str) :
    scan ('\\' :: e :: t) = (scan t).map fun y => (.char x :: y.1, y.2) := by
  rw [scan.eq_def]
  simp only [Char.reduceEq, if_true, if_false, he, hx]
  cases scan t <;> rfl

theorem scan_code (a b c d : Char) (n : Nat) (h : unhex4 a b c d = some n) (t : Str) :
    scan ('\\' :: 'u' :: a :: b :: c :: d :: t) = (scan t).map fun y => (.code n :: y.1, y.2) := by
  rw [scan.eq_def]
  simp only [Char.reduceEq, if_true, if_false, h]
  cases scan t <;> rfl

theorem scan_uEscape {n : Nat} (h : n < 65536) (t : Str) :
    scan (uEscape n ++ t) = (scan t).map fun x => (.code n :: x.1, x.2) :=
  scan_code _ _ _ _ _ (unhex4_digits h) t

theorem char_bound (c : Char) : c.toNat < 55296 ∨ (57343 < c.toNat ∧ c.toNat < 1114112) := c.valid

/-- The pieces that stand for a character. -/
def piecesOf (c : Char) : List Piece :=
  if c = '\n' ∨ c = '\r' ∨ c = '\t' ∨ c = Char.ofNat 12 ∨ c = Char.ofNat 8 ∨
      (32 ≤ c.toNat ∧ c.toNat ≤ 126) then [.char c]
  else if c.toNat < 65536 then [.code c.toNat]
  else [.code (55296 + (c.toNat - 65536) / 1024), .code (56320 + (c.toNat - 65536) % 1024)]

theorem scan_escape (c : Char) (t : Str) :
    scan (escape c ++ t) = (scan t).map fun x => (piecesOf c ++ x.1, x.2) := by
  have hb := char_bound c
  by_cases h1 : c = '"'
  · subst h1; exact scan_short _ _ (by decide) (by decide) t
  by_cases h2 : c = '\\'
  · subst h2; exact scan_short _ _ (by decide) (by decide) t
  by_cases h3 : c = '\n'
  · subst h3; exact scan_short _ _ (by decide) (by decide) t
  by_cases h4 : c = '\r'
  · subst h4; exact scan_short _ _ (by decide) (by decide) t
  by_cases h5 : c = '\t'
  · subst h5; exact scan_short _ _ (by decide) (by decide) t
  by_cases h6 : c = Char.ofNat 12
  · subst h6; exact scan_short _ _ (by decide) (by decide) t
  by_cases h7 : c = Char.ofNat 8
  · subst h7; exact scan_short _ _ (by decide) (by decide) t
  simp only [escape, piecesOf, h1, h2, h3, h4, h5, h6, h7, if_false, false_or]
  split_ifs with h8 h9
  · exact scan_plain _ h1 h2 (by omega) t
  · exact scan_uEscape (by omega) t
  · rw [List.append_assoc, scan_uEscape (by omega), scan_uEscape (by omega)]
    cases scan t <;> rfl

theorem assemble_one (n : Nat) (h : n < 55296 ∨ 57343 < n) (ps : List Piece) :
    assemble (.code n :: ps) = (assemble ps).map (Char.ofNat n :: ·) := by
  rw [assemble.eq_def]; simp only [h, if_true]

theorem assemble_two (n m : Nat) (h : ¬ (n < 55296 ∨ 57343 < n))
    (hm : n < 56320 ∧ 56320 ≤ m ∧ m ≤ 57343) (ps : List Piece) :
    assemble (.code n :: .code m :: ps) =
      (assemble ps).map (Char.ofNat (65536 + (n - 55296) * 1024 + (m - 56320)) :: ·) := by
  rw [assemble.eq_def]; simp only [h, hm, if_true, if_false, and_self]

theorem assemble_pieces (c : Char) (ps : List Piece) :
    assemble (piecesOf c ++ ps) = (assemble ps).map (c :: ·) := by
  have hb := char_bound c
  unfold piecesOf
  split_ifs with h1 h2
  · rw [List.cons_append, List.nil_append, assemble]
  · rw [List.cons_append, List.nil_append, assemble_one _ (by omega), Char.ofNat_toNat]
  · simp only [List.cons_append, List.nil_append]
    rw [assemble_two _ _ (by omega) (by omega)]
    have : 65536 + (55296 + (c.toNat - 65536) / 1024 - 55296) * 1024 +
        (56320 + (c.toNat - 65536) % 1024 - 56320) = c.toNat := by omega
    rw [this, Char.ofNat_toNat]

theorem scan_text (s r : Str) :
    scan (s.flatMap escape ++ '"' :: r) = some (s.flatMap piecesOf, r) := by
  induction s with
  | nil => exact scan_quote r
  | cons c s ih => rw [List.flatMap_cons, List.append_assoc, scan_escape, ih]; rfl

theorem assemble_text (s : Str) : assemble (s.flatMap piecesOf) = some s := by
  induction s with
  | nil => rfl
  | cons c s ih => rw [List.flatMap_cons, assemble_pieces, ih]; rfl

/-- A text in quotes is read back. -/
theorem readText_quote (s r : Str) : readText (s.flatMap escape ++ '"' :: r) = some (s, r) := by
  rw [readText, scan_text]; simp only [assemble_text]; rfl

/-! ## white space -/

theorem skip_space (c : Char) (h : isSpace c = true) (s : Str) : skip (c :: s) = skip s := by
  rw [skip, List.dropWhile_cons, if_pos h]; rfl

theorem skip_solid (c : Char) (h : isSpace c = false) (s : Str) : skip (c :: s) = c :: s := by
  rw [skip, List.dropWhile_cons, if_neg (by simp [h])]

theorem skip_newLine (l : Nat) (s : Str) : skip (newLine l ++ s) = skip s := by
  rw [newLine, List.cons_append, skip_space _ (by decide)]
  induction 2 * l with
  | zero => rfl
  | succ n ih => rw [List.replicate_succ, List.cons_append, skip_space _ (by decide), ih]

/-! ## numbers -/

/-- What follows a value. -/
def Follows (r : Str) : Prop := ∀ c ∈ r.head?, isDec c = false ∧ c ≠ '.' ∧ c ≠ 'e' ∧ c ≠ 'E'

theorem isDec_iff (c : Char) : isDec c = c.isDigit := by
  simp only [isDec, Char.isDigit, Char.toNat]
  congr 1

theorem span_follows {ds r : Str} (hd : ∀ c ∈ ds, isDec c = true) (hr : Follows r) :
    (ds ++ r).takeWhile isDec = ds ∧ (ds ++ r).dropWhile isDec = r := by
  induction ds with
  | nil =>
    cases r with
    | nil => exact ⟨rfl, rfl⟩
    | cons c r =>
      have := (hr c rfl).1
      simp [this]
  | cons c ds ih =>
    have h1 := hd c List.mem_cons_self
    have h2 := ih fun x hx => hd x (List.mem_cons_of_mem _ hx)
    simp [h1, h2]

theorem isReal_follows {r : Str} (hr : Follows r) : isReal r = false := by
  unfold isReal
  split
  · exact absurd rfl (hr '.' rfl).2.1
  · exact absurd rfl (hr 'e' rfl).2.2.1
  · exact absurd rfl (hr 'E' rfl).2.2.2
  · rfl

theorem digitsOf_other (s : Str) (h : s.head? ≠ some '0') :
    digitsOf s = (s.takeWhile isDec, s.dropWhile isDec) := by
  unfold digitsOf
  split
  · exact absurd rfl h
  · rfl

theorem digitsOf_follows {ds r : Str} (hd : ∀ c ∈ ds, isDec c = true) (h0 : ds ≠ [])
    (hz : ∀ t, ds = '0' :: t → t = []) (hr : Follows r) : digitsOf (ds ++ r) = (ds, r) := by
  cases ds with
  | nil => exact absurd rfl h0
  | cons c ds =>
    by_cases hc : c = '0'
    · subst hc; rw [hz ds rfl]; rfl
    · rw [digitsOf_other _ (by simpa using hc), (span_follows hd hr).1, (span_follows hd hr).2]

theorem readNat_follows {ds r : Str} (hd : ∀ c ∈ ds, isDec c = true) (h0 : ds ≠ [])
    (hz : ∀ t, ds = '0' :: t → t = []) (hr : Follows r) :
    readNat (ds ++ r) = some (Nat.ofDigitChars 10 ds 0, r) := by
  rw [readNat, digitsOf_follows hd h0 hz hr, if_neg]
  simp [h0, isReal_follows hr]

theorem natStr_zero_head (n : Nat) (t : Str) (h : natStr n = '0' :: t) : t = [] := by
  induction n using Nat.strongRecOn generalizing t with
  | ind n ih =>
    by_cases hn : n < 10
    · rw [natStr, Nat.toDigits_of_lt_base hn] at h
      simp only [List.cons.injEq] at h; exact h.2.symm
    · rw [natStr, Nat.toDigits_of_base_le (by decide) (by omega)] at h
      cases hd : Nat.toDigits 10 (n / 10) with
      | nil => exact absurd hd Nat.toDigits_ne_nil
      | cons c u =>
        rw [hd] at h
        simp only [List.cons_append, List.cons.injEq] at h
        have hu := ih (n / 10) (by omega) u (by rw [natStr, hd, h.1])
        have h2 := Nat.ofDigitChars_ten_toDigits (n := n / 10)
        rw [hd, hu, h.1] at h2
        have : Nat.ofDigitChars 10 ['0'] 0 = 0 := by decide
        omega

theorem readNat_natStr (n : Nat) (r : Str) (hr : Follows r) : readNat (natStr n ++ r) = some (n, r) := by
  rw [readNat_follows (fun c hc => by rw [isDec_iff]; exact natStr_digits hc) (natStr_ne_nil n)
    (natStr_zero_head n) hr]
  rw [natStr, Nat.ofDigitChars_ten_toDigits]

theorem readInt_nat (s : Str) (h : s.head? ≠ some '-') :
    readInt s = (readNat s).map fun (n, r) => (.int n, r) := by
  unfold readInt
  split
  · exact absurd rfl h
  · rfl

theorem readInt_intStr (n : Int) (r : Str) (hr : Follows r) :
    readInt (intStr n ++ r) = some (.int n, r) := by
  cases n with
  | ofNat k =>
    show readInt (natStr k ++ r) = _
    rw [readInt_nat, readNat_natStr k r hr]
    · rfl
    · cases hk : natStr k with
      | nil => exact absurd hk (natStr_ne_nil k)
      | cons c u =>
        have := natStr_digits (n := k) (c := c) (by rw [hk]; exact List.mem_cons_self)
        intro h; simp only [List.cons_append, List.head?_cons, Option.some.injEq] at h
        subst h; revert this; decide
  | negSucc k =>
    show readInt ('-' :: (natStr (k + 1) ++ r)) = _
    rw [readInt, readNat_natStr _ r hr]
    rfl

end JVal
end Punx
