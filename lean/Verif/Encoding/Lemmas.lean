import Verif.Encoding.Model

namespace Faucet.Encoding

theorem hexVal_hexDigit {n : Nat} (h : n < 16) : hexVal (hexDigit n) = some n := by
  match n, h with
  | 0, _ => rfl | 1, _ => rfl | 2, _ => rfl | 3, _ => rfl | 4, _ => rfl | 5, _ => rfl | 6, _ => rfl | 7, _ => rfl
  | 8, _ => rfl | 9, _ => rfl | 10, _ => rfl | 11, _ => rfl | 12, _ => rfl | 13, _ => rfl | 14, _ => rfl | 15, _ => rfl
  | n + 16, h => omega

theorem hexDigit_ne (n : Nat) : hexDigit n ≠ ':' := by
  unfold hexDigit; split <;> decide

theorem toHexAux_ne_nil (f n : Nat) : toHexAux f n ≠ [] := by
  cases f with
  | zero => simp [toHexAux]
  | succ f => unfold toHexAux; split <;> simp

theorem toHex_ne_nil (n : Nat) : toHex n ≠ [] := toHexAux_ne_nil n n

theorem toHexAux_no_colon (f n : Nat) : ':' ∉ toHexAux f n := by
  induction f generalizing n with
  | zero => simp only [toHexAux, List.mem_cons, List.not_mem_nil, or_false]; exact (hexDigit_ne n).symm
  | succ f ih =>
    unfold toHexAux
    split
    · simp only [List.mem_cons, List.not_mem_nil, or_false]; exact (hexDigit_ne n).symm
    · simp only [List.mem_append, List.mem_cons, List.not_mem_nil, or_false, not_or]
      exact ⟨ih _, (hexDigit_ne _).symm⟩

theorem toHex_no_colon (n : Nat) : ':' ∉ toHex n := toHexAux_no_colon n n

theorem toHexPad_no_colon (w n : Nat) : ':' ∉ toHexPad w n := by
  unfold toHexPad
  simp only [List.mem_append, not_or]
  refine ⟨?_, toHex_no_colon n⟩
  intro h
  have := List.eq_of_mem_replicate h
  exact absurd this (by decide)

theorem parse_toHexAux (f n : Nat) (h : n ≤ f) : (toHexAux f n).foldl parseFold (some 0) = some n := by
  induction f generalizing n with
  | zero =>
    have : n = 0 := by omega
    subst this; rfl
  | succ f ih =>
    unfold toHexAux
    split
    · rename_i hn
      simp [parseFold, hexVal_hexDigit hn]
    · rename_i hn
      rw [List.foldl_append, ih (n / 16) (by omega)]
      simp only [List.foldl_cons, List.foldl_nil, parseFold, hexVal_hexDigit (Nat.mod_lt n (by omega : 0 < 16)),
        Option.bind_some, Option.map_some]
      congr 1; omega

theorem parse_zeros (k : Nat) (s : Str) (a : Nat) (ha : a = 0) :
    (List.replicate k '0' ++ s).foldl parseFold (some a) = s.foldl parseFold (some a) := by
  subst ha
  induction k with
  | zero => rfl
  | succ k ih =>
    rw [List.replicate_succ, List.cons_append, List.foldl_cons]
    exact ih

theorem parseHex_toHex (n : Nat) : parseHex (toHex n) = some n := by
  unfold parseHex
  rw [if_neg (toHex_ne_nil n)]
  exact parse_toHexAux n n (Nat.le_refl n)

theorem parseHex_toHexPad (w n : Nat) : parseHex (toHexPad w n) = some n := by
  unfold parseHex toHexPad
  rw [if_neg (by simp [toHex_ne_nil]), parse_zeros _ _ _ rfl]
  exact parse_toHexAux n n (Nat.le_refl n)

theorem toHex_inj {a b : Nat} (h : toHex a = toHex b) : a = b := by
  have := parseHex_toHex a
  rw [h, parseHex_toHex] at this
  exact (Option.some.inj this).symm

theorem toHexPad_inj {w a b : Nat} (h : toHexPad w a = toHexPad w b) : a = b := by
  have := parseHex_toHexPad w a
  rw [h, parseHex_toHexPad] at this
  exact (Option.some.inj this).symm

theorem split_ne_nil (s : Str) : split s ≠ [] := by
  cases s with
  | nil => simp [split]
  | cons c cs =>
    unfold split
    split
    · simp
    · split <;> simp

theorem split_no_colon (s : Str) : ∀ f ∈ split s, ':' ∉ f := by
  induction s with
  | nil => simp [split]
  | cons c cs ih =>
    unfold split
    split
    · intro f hf
      rcases List.mem_cons.1 hf with rfl | hf
      · simp
      · exact ih f hf
    · rename_i hc
      split
      · intro f hf
        simp only [List.mem_cons, List.not_mem_nil, or_false] at hf
        subst hf
        simpa using fun h => hc h.symm
      · rename_i g gs hg
        intro f hf
        rcases List.mem_cons.1 hf with rfl | hf
        · simp only [List.mem_cons, not_or]
          exact ⟨fun h => hc h.symm, ih g (by rw [hg]; simp)⟩
        · exact ih f (by rw [hg]; exact List.mem_cons_of_mem _ hf)

theorem split_of_no_colon {s : Str} (h : ':' ∉ s) : split s = [s] := by
  induction s with
  | nil => rfl
  | cons c cs ih =>
    simp only [List.mem_cons, not_or] at h
    unfold split
    rw [if_neg (fun hc => h.1 hc.symm), ih h.2]

theorem split_append {p : Str} (h : ':' ∉ p) (s : Str) : split (p ++ ':' :: s) = p :: split s := by
  induction p with
  | nil => simp [split]
  | cons c cs ih =>
    simp only [List.mem_cons, not_or] at h
    rw [List.cons_append]
    conv => lhs; unfold split
    rw [if_neg (fun hc => h.1 hc.symm), ih h.2]

/-- Splitting undoes joining. -/
theorem split_join {ps : List Str} (hne : ps ≠ []) (h : ∀ p ∈ ps, ':' ∉ p) : split (join ps) = ps := by
  induction ps with
  | nil => exact absurd rfl hne
  | cons p ps ih =>
    cases ps with
    | nil => exact split_of_no_colon (h p (by simp))
    | cons q qs =>
      show split (p ++ ':' :: join (q :: qs)) = _
      rw [split_append (h p (by simp)), ih (by simp) (fun x hx => h x (List.mem_cons_of_mem _ hx))]

theorem length_toHexAux {f n : Nat} (h : n ≤ f) (k : Nat) (hn : n < 16 ^ (k + 1)) : (toHexAux f n).length ≤ k + 1 := by
  induction f generalizing n k with
  | zero => simp [toHexAux]
  | succ f ih =>
    unfold toHexAux
    split
    · simp
    · rename_i h16
      cases k with
      | zero => simp at hn; omega
      | succ k =>
        have := ih (n := n / 16) (by omega) k (by
          rw [Nat.pow_succ] at hn
          exact Nat.div_lt_of_lt_mul (by omega))
        simp only [List.length_append, List.length_cons, List.length_nil]
        omega

theorem length_toHexPad {w n : Nat} (hw : 0 < w) (hn : n < 16 ^ w) : (toHexPad w n).length = w := by
  unfold toHexPad
  obtain ⟨k, rfl⟩ : ∃ k, w = k + 1 := ⟨w - 1, by omega⟩
  have := length_toHexAux (Nat.le_refl n) k hn
  unfold toHex
  simp only [List.length_append, List.length_replicate]
  omega

theorem length_toHexPad_ge (w n : Nat) : w ≤ (toHexPad w n).length := by
  unfold toHexPad
  simp only [List.length_append, List.length_replicate]
  omega

end Faucet.Encoding
