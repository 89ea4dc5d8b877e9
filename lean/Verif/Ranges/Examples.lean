import Verif.Ranges.Ports

/-!
# Interface ranges: examples and defects
-/

namespace Faucet.Ranges.Ex

/-- A number's text. -/
def digits (ds : List (Fin 10)) : Text := ds.map .dig

def comma : Ch := .other 44

/-- `1-3,5,17-19` -/
def good : Text := digits [1] ++ .dash :: digits [3] ++ comma :: digits [5] ++ comma ::
  digits [1, 7] ++ .dash :: digits [1, 9]

theorem digits_ok {ds : List (Fin 10)} (h : ds ≠ []) : Digits (digits ds) := by
  refine ⟨by simpa [digits] using h, fun c hc => ?_⟩
  obtain ⟨d, -, rfl⟩ := List.mem_map.1 hc
  rfl

theorem good_items : items good = [digits [1] ++ .dash :: digits [3], digits [5],
    digits [1, 7] ++ .dash :: digits [1, 9]] := rfl

theorem good_wf : WellFormed good := by
  intro w hw
  rw [good_items] at hw
  simp only [List.mem_cons, List.not_mem_nil, or_false] at hw
  rcases hw with rfl | rfl | rfl
  · exact .inr (.inr ⟨_, _, digits_ok (by simp), digits_ok (by simp), rfl⟩)
  · exact .inr (.inl (digits_ok (by simp)))
  · exact .inr (.inr ⟨_, _, digits_ok (by simp), digits_ok (by simp), rfl⟩)

theorem good_noNesting : NoNesting good := by
  intro w hw w' hw' a b c d h1 h2 hs hp
  rw [good_items] at hw hw'
  have r1 : IsRange (digits [1] ++ .dash :: digits [3]) (digits [1]) (digits [3]) :=
    ⟨digits_ok (by simp), digits_ok (by simp), rfl⟩
  have r2 : IsRange (digits [1, 7] ++ .dash :: digits [1, 9]) (digits [1, 7]) (digits [1, 9]) :=
    ⟨digits_ok (by simp), digits_ok (by simp), rfl⟩
  simp only [List.mem_cons, List.not_mem_nil, or_false] at hw hw'
  rcases hw with rfl | rfl | rfl
  · obtain ⟨rfl, rfl⟩ := isRange_inj h1 r1
    rcases hw' with rfl | rfl | rfl
    · rfl
    · exact absurd (digits_ok (by simp)) (range_not_digits h2)
    · obtain ⟨rfl, rfl⟩ := isRange_inj h2 r2
      revert hp; decide
  · exact absurd (digits_ok (by simp)) (range_not_digits h1)
  · obtain ⟨rfl, rfl⟩ := isRange_inj h1 r2
    rcases hw' with rfl | rfl | rfl
    · obtain ⟨rfl, rfl⟩ := isRange_inj h2 r1
      revert hp; decide
    · exact absurd (digits_ok (by simp)) (range_not_digits h2)
    · rfl

example : parseRange good = some [1, 2, 3, 17, 18, 19, 5] := by decide +kernel

example : Listed good 18 :=
  ⟨digits [1, 7] ++ .dash :: digits [1, 9], by rw [good_items]; simp,
    .inr ⟨_, _, ⟨digits_ok (by simp), digits_ok (by simp), rfl⟩, by decide, by decide⟩⟩

/-- `9-5` is rejected. -/
example : parseRange (digits [9] ++ .dash :: digits [5]) = none := by decide +kernel

example : Reversed (digits [9] ++ .dash :: digits [5]) :=
  ⟨_, by rw [items_single (by unfold NoSep; decide)]; exact .head _, digits [9], digits [5],
    ⟨digits_ok (by simp), digits_ok (by simp), rfl⟩, by decide⟩

/-- Interface 2 and the range above. -/
def ifs : List (Key × Conf) := [(.name 1, ⟨some (.num 2), [(1, 10)]⟩), (.num 40, ⟨none, []⟩)]
def rng : Conf := ⟨none, [(1, 20), (2, 30)]⟩

example : (ifs.map numOf).Nodup := by decide
example : (addPorts ifs [(good, rng)]).isSome = true := by decide +kernel
example : ((addPorts ifs [(good, rng)]).bind (·.lookup (.num 2))).map
    (fun x => (x.1, x.2.get 1, x.2.get 2)) = some (.name 1, some 10, some 30) := by decide +kernel
example : ((addPorts ifs [(good, rng)]).bind (·.lookup (.num 18))).map
    (fun x => (x.1, x.2.get 1, x.2.get 2)) = some (.num 18, some 20, some 30) := by decide +kernel
example : addPorts ifs [(good, rng), (digits [1, 8], rng)] = none := by decide +kernel
example : Covers (good, rng) 2 := ⟨[1, 2, 3, 17, 18, 19, 5], by decide +kernel, by decide⟩

/-! ## Defects -/

/-- `5-9,35-91` -/
def nested : Text := digits [5] ++ .dash :: digits [9] ++ comma :: digits [3, 5] ++ .dash ::
  digits [9, 1]

/-- The text of a range is removed wherever it occurs, also within another range (config_parser.py
147): `5-9,35-91` leaves `31` behind, and port 31 is configured although it is not listed. -/
theorem nested_range_defect :
    (∃ s, parseRange nested = some s ∧ 31 ∈ s) ∧ ¬ Listed nested 31 ∧ WellFormed nested := by
  have hi : items nested = [digits [5] ++ .dash :: digits [9], digits [3, 5] ++ .dash :: digits [9, 1]] :=
    rfl
  have r1 : IsRange (digits [5] ++ .dash :: digits [9]) (digits [5]) (digits [9]) :=
    ⟨digits_ok (by simp), digits_ok (by simp), rfl⟩
  have r2 : IsRange (digits [3, 5] ++ .dash :: digits [9, 1]) (digits [3, 5]) (digits [9, 1]) :=
    ⟨digits_ok (by simp), digits_ok (by simp), rfl⟩
  refine ⟨⟨(parseRange nested).get (by decide +kernel), Option.some_get (by decide +kernel) |>.symm, by
    decide +kernel⟩, ?_, ?_⟩
  · rintro ⟨w, hw, h⟩
    rw [hi] at hw
    simp only [List.mem_cons, List.not_mem_nil, or_false] at hw
    rcases hw with rfl | rfl
    · rcases h with ⟨h, -⟩ | ⟨a, b, h, h1, h2⟩
      · exact range_not_digits r1 h
      · obtain ⟨rfl, rfl⟩ := isRange_inj h r1
        revert h2; decide
    · rcases h with ⟨h, -⟩ | ⟨a, b, h, h1, h2⟩
      · exact range_not_digits r2 h
      · obtain ⟨rfl, rfl⟩ := isRange_inj h r2
        revert h1; decide
  · intro w hw
    rw [hi] at hw
    simp only [List.mem_cons, List.not_mem_nil, or_false] at hw
    rcases hw with rfl | rfl
    · exact .inr (.inr ⟨_, _, r1⟩)
    · exact .inr (.inr ⟨_, _, r2⟩)

/-- Two interfaces that give the same number: the first is dropped without an error
(config_parser.py 123). -/
theorem duplicate_number_defect :
    addPorts [(.name 1, ⟨some (.num 7), [(1, 10)]⟩), (.name 2, ⟨some (.num 7), [(1, 20)]⟩)] [] =
      some [(.num 7, .name 2, ⟨some (.num 7), [(1, 20)]⟩)] := by decide +kernel

/-- Ranges of one expression may overlap: only different expressions are compared
(config_parser.py 153-156). -/
theorem overlap_within_defect :
    parseRange (digits [1] ++ .dash :: digits [3] ++ comma :: digits [2] ++ .dash :: digits [4]) =
      some [1, 2, 3, 2, 3, 4] := by decide +kernel

end Faucet.Ranges.Ex
