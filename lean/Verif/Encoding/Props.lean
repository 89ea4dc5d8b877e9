import Verif.Encoding.Lemmas
import Mathlib.Data.Nat.Bitwise
import Mathlib.Tactic.Tauto
import Mathlib.Tactic.ByContra

/-!
# C41-C45: encodings round-trip, C53 (mask bits): longer masks weigh more
-/

namespace Faucet.Encoding

open Faucet Faucet.OF

/-- Specification: the bytes of a MAC address string, as the OpenFlow library encodes it on the wire. -/
def macBytes (mac : Str) : Option (List Nat) := (split mac).mapM parseHex

/-- Specification: a string is a MAC address if it has six colon-separated fields, each a number below 256. -/
def IsMac (mac : Str) : Prop := ∃ bs, macBytes mac = some bs ∧ bs.length = 6 ∧ ∀ b ∈ bs, b < 256

/-! ## C41 -/

/-- **C41 (string level).** Whatever the MAC and the number, the number written is the number read. -/
theorem vid_in_mac_roundtrip (mac : Str) (v : Nat) : intFromMac (intInMac mac v) = some v := by
  have hs : split (intInMac mac v) = (split mac).take 4 ++ [toHex (v >>> 8), toHex (v &&& 0xff)] := by
    apply split_join
    · simp
    · intro p hp
      simp only [List.mem_append, List.mem_cons, List.not_mem_nil, or_false] at hp
      rcases hp with hp | rfl | rfl
      · exact split_no_colon mac p (List.mem_of_mem_take hp)
      · exact toHex_no_colon _
      · exact toHex_no_colon _
  unfold intFromMac
  rw [hs]
  simp only [List.reverse_append, List.reverse_cons, List.reverse_nil, List.nil_append, List.cons_append,
    hiLo, parseHex_toHex]
  have h1 : v &&& 255 = v % 256 := Nat.and_two_pow_sub_one_eq_mod v 8
  rw [h1, Nat.shiftRight_eq_div_pow, Nat.shiftLeft_eq]
  congr 1; omega

theorem macBytes_intInMac {mac : Str} {b0 b1 b2 b3 b4 b5 : Nat} (h : macBytes mac = some [b0, b1, b2, b3, b4, b5])
    (v : Nat) : macBytes (intInMac mac v) = some [b0, b1, b2, b3, v / 256, v % 256] := by
  unfold macBytes at h ⊢
  have hs : split (intInMac mac v) = (split mac).take 4 ++ [toHex (v >>> 8), toHex (v &&& 0xff)] := by
    apply split_join
    · simp
    · intro p hp
      simp only [List.mem_append, List.mem_cons, List.not_mem_nil, or_false] at hp
      rcases hp with hp | rfl | rfl
      · exact split_no_colon mac p (List.mem_of_mem_take hp)
      · exact toHex_no_colon _
      · exact toHex_no_colon _
  have h1 : v &&& 255 = v % 256 := Nat.and_two_pow_sub_one_eq_mod v 8
  rw [hs]
  rcases hm : split mac with _ | ⟨f0, _ | ⟨f1, _ | ⟨f2, _ | ⟨f3, r⟩⟩⟩⟩
  · rw [hm] at h; simp [Option.bind_eq_some_iff] at h
  · rw [hm] at h; simp [Option.bind_eq_some_iff] at h
  · rw [hm] at h; simp [Option.bind_eq_some_iff] at h
  · rw [hm] at h; simp [Option.bind_eq_some_iff] at h
  · rw [hm] at h
    simp only [List.mapM_cons, Option.bind_eq_bind, Option.bind_eq_some_iff, Option.pure_def, Option.some.injEq,
      List.cons.injEq] at h
    obtain ⟨a0, h0, r0, ⟨a1, h1', r1, ⟨a2, h2, r2, ⟨a3, h3, r3, hr, e3⟩, e2⟩, e1⟩, e0⟩ := h
    subst e3 e2 e1
    obtain ⟨rfl, rfl, rfl, rfl, -⟩ := e0
    simp [h0, h1', h2, h3, parseHex_toHex, h1, Nat.shiftRight_eq_div_pow]

theorem mapM_parse_pad (w : Nat) (bs : List Nat) : (bs.map (toHexPad w)).mapM parseHex = some bs := by
  induction bs with
  | nil => rfl
  | cons b bs ih => simp [ih, parseHex_toHexPad]

/-- Reading the low bytes of any printed MAC. -/
theorem intFromMac_print (b0 b1 b2 b3 b4 b5 : Nat) :
    intFromMac (printMac [b0, b1, b2, b3, b4, b5]) = some (b4 * 256 + b5) := by
  unfold intFromMac printMac
  rw [split_join (by simp) (by
    intro p hp
    obtain ⟨b, -, rfl⟩ := List.mem_map.1 hp
    exact toHexPad_no_colon 2 b)]
  simp [hiLo, parseHex_toHexPad, Nat.shiftLeft_eq]

/-- **C41.** Writing a 16-bit VID into a MAC address gives a MAC address whose first four bytes are those of the
original, and reading the VID back from those bytes, as they arrive in a packet, returns the VID. -/
theorem vid_survives_wire {mac : Str} {b0 b1 b2 b3 b4 b5 : Nat} (h : macBytes mac = some [b0, b1, b2, b3, b4, b5])
    (hb : ∀ b ∈ [b0, b1, b2, b3, b4, b5], b < 256) {v : Nat} (hv : v < 65536) :
    ∃ hi lo, hi < 256 ∧ lo < 256 ∧ macBytes (intInMac mac v) = some [b0, b1, b2, b3, hi, lo] ∧
      IsMac (intInMac mac v) ∧ intFromMac (printMac [b0, b1, b2, b3, hi, lo]) = some v := by
  have hm := macBytes_intInMac h v
  refine ⟨v / 256, v % 256, by omega, by omega, hm, ⟨_, hm, rfl, ?_⟩, ?_⟩
  · intro b hb'
    simp only [List.mem_cons, List.not_mem_nil, or_false] at hb hb'
    rcases hb' with h | h | h | h | h | h
    · exact hb b (by simp [h])
    · exact hb b (by simp [h])
    · exact hb b (by simp [h])
    · exact hb b (by simp [h])
    · omega
    · omega
  · rw [intFromMac_print]; congr 1; omega

/-- Consequence: two VIDs never share a MAC. -/
theorem vid_in_mac_injective (mac : Str) (v w : Nat) (h : intInMac mac v = intInMac mac w) : v = w := by
  have := vid_in_mac_roundtrip mac v
  rw [h, vid_in_mac_roundtrip] at this
  exact (Option.some.inj this).symm

example : macBytes "0e:00:00:00:00:01".toList = some [14, 0, 0, 0, 0, 1] ∧
    intInMac "0e:00:00:00:00:01".toList 300 = "0e:00:00:00:1:2c".toList ∧
    intFromMac "0e:00:00:00:01:2c".toList = some 300 := by decide

/-! ## C42 -/

theorem colon_split_unique {a b c d : Str} (ha : ':' ∉ a) (hc : ':' ∉ c) (h : a ++ ':' :: b = c ++ ':' :: d) :
    a = c ∧ b = d := by
  induction a generalizing c with
  | nil =>
    cases c with
    | nil => simpa using h
    | cons x xs =>
      simp only [List.nil_append, List.cons_append, List.cons.injEq] at h
      exact absurd (h.1 ▸ List.mem_cons_self) hc
  | cons x xs ih =>
    cases c with
    | nil =>
      simp only [List.nil_append, List.cons_append, List.cons.injEq] at h
      exact absurd (h.1 ▸ List.mem_cons_self) ha
    | cons y ys =>
      simp only [List.cons_append, List.cons.injEq, List.mem_cons, not_or] at h ha hc
      obtain ⟨rfl, rfl⟩ := ih ha.2 hc.2 h.2
      exact ⟨by rw [h.1], rfl⟩

/-- **C42 (uniqueness).** Distinct (switch index, port number) pairs have distinct identity addresses, for all numbers. -/
theorem dot1x_identity_injective {i j p q : Nat} (h : getMacStr i p = getMacStr j q) : i = j ∧ p = q := by
  unfold getMacStr at h
  simp only [List.append_assoc] at h
  have h := List.append_cancel_left h
  obtain ⟨h1, h2⟩ := colon_split_unique (toHexPad_no_colon 2 i) (toHexPad_no_colon 2 j) h
  obtain ⟨h3, h4⟩ := colon_split_unique (fun hm => toHexPad_no_colon 4 p (List.mem_of_mem_take hm))
    (fun hm => toHexPad_no_colon 4 q (List.mem_of_mem_take hm)) h2
  refine ⟨toHexPad_inj h1, toHexPad_inj (w := 4) ?_⟩
  rw [← List.take_append_drop 2 (toHexPad 4 p), h3, h4, List.take_append_drop]

theorem parse_take_drop {a b : Str} {n : Nat} (h : (a ++ b).foldl parseFold (some 0) = some n) :
    ∃ x y, a.foldl parseFold (some 0) = some x ∧ b.foldl parseFold (some x) = some n ∧ y = n := by
  rw [List.foldl_append] at h
  cases ha : a.foldl parseFold (some 0) with
  | none =>
    rw [ha] at h
    have : ∀ l : Str, l.foldl parseFold none = none := by
      intro l
      induction l with
      | nil => rfl
      | cons c cs ih => exact ih
    rw [this] at h; simp at h
  | some x => exact ⟨x, n, rfl, by rw [ha] at h; exact h, rfl⟩

theorem two_digits (c d : Char) {x n : Nat} (h : [c, d].foldl parseFold (some x) = some n) :
    ∃ y, parseHex [c, d] = some y ∧ n = x * 256 + y ∧ y < 256 := by
  have hv : ∀ e : Char, ∀ k, hexVal e = some k → k < 16 := by
    intro e k hk
    unfold hexVal at hk
    split at hk <;> simp at hk <;> omega
  simp only [List.foldl_cons, List.foldl_nil, parseFold, Option.bind_some] at h
  cases hc : hexVal c with
  | none => rw [hc] at h; simp at h
  | some a =>
    cases hd : hexVal d with
    | none => rw [hc, hd] at h; simp at h
    | some b =>
      rw [hc, hd] at h
      simp only [Option.map_some, Option.bind_some, Option.some.injEq] at h
      have ha := hv c a hc
      have hb := hv d b hd
      exact ⟨a * 16 + b, by simp [parseHex, parseFold, hc, hd], by omega, by omega⟩

/-- **C42 (recovery).** For ports below 65536 and fewer than 256 switches the identity is a MAC address and the low two
bytes, read back, are the port number; the fourth byte is the switch index. -/
theorem dot1x_identity_recovers {i p : Nat} (hi : i < 256) (hp : p < 65536) :
    IsMac (getMacStr i p) ∧ intFromMac (getMacStr i p) = some p ∧
      macBytes (getMacStr i p) = some [0, 0, 0, i, p / 256, p % 256] := by
  have hl4 : (toHexPad 4 p).length = 4 := length_toHexPad (by omega) (by simpa using hp)
  have hpar := parseHex_toHexPad 4 p
  have hnc := toHexPad_no_colon 4 p
  have hstr : ∀ s : Str, split ("00:00:00:".toList ++ s) = ['0', '0'] :: ['0', '0'] :: ['0', '0'] :: split s := by
    intro s
    show split (['0', '0'] ++ ':' :: (['0', '0'] ++ ':' :: (['0', '0'] ++ ':' :: s))) = _
    rw [split_append (by decide), split_append (by decide), split_append (by decide)]
  unfold getMacStr
  simp only [List.append_assoc]
  generalize hP : toHexPad 4 p = P at *
  match P, hl4 with
  | [c1, c2, c3, c4], _ =>
    have hsplit : split ("00:00:00:".toList ++ (toHexPad 2 i ++ ':' :: (List.take 2 [c1, c2, c3, c4] ++ ':' :: List.drop 2 [c1, c2, c3, c4])))
        = [['0', '0'], ['0', '0'], ['0', '0'], toHexPad 2 i, [c1, c2], [c3, c4]] := by
      rw [hstr, split_append (toHexPad_no_colon 2 i)]
      simp only [List.mem_cons, List.not_mem_nil, or_false, not_or] at hnc
      show ['0', '0'] :: ['0', '0'] :: ['0', '0'] :: toHexPad 2 i :: split ([c1, c2] ++ ':' :: [c3, c4]) = _
      rw [split_append (by simp [hnc]), split_of_no_colon (by simp [hnc])]
    unfold parseHex at hpar
    rw [if_neg (by simp)] at hpar
    obtain ⟨x, -, h1, h2, -⟩ := parse_take_drop (a := [c1, c2]) (b := [c3, c4]) hpar
    obtain ⟨x', hx', hxx, -⟩ := two_digits c1 c2 h1
    obtain ⟨y, hy, hn, hy256⟩ := two_digits c3 c4 h2
    have hx : x = p / 256 := by omega
    have hyp : y = p % 256 := by omega
    have hxe : x' = x := by omega
    have hb : macBytes ("00:00:00:".toList ++ (toHexPad 2 i ++ ':' :: (List.take 2 [c1, c2, c3, c4] ++ ':' :: List.drop 2 [c1, c2, c3, c4])))
        = some [0, 0, 0, i, p / 256, p % 256] := by
      unfold macBytes
      rw [hsplit]
      have h00 : parseHex ['0', '0'] = some 0 := by decide
      simp [h00, parseHex_toHexPad, hx', hy, hxe, hx, hyp]
    refine ⟨⟨_, hb, rfl, ?_⟩, ?_, hb⟩
    · intro b hb
      simp only [List.mem_cons, List.not_mem_nil, or_false] at hb
      omega
    · unfold intFromMac
      rw [hsplit]
      simp [hiLo, hx', hy, Nat.shiftLeft_eq]
      omega

/-- Finding: a port number that does not fit 16 bits (OpenFlow ports have 32) is printed with a three-digit last field.
Read as bytes that is the address of another port, so on the wire the two identities are the same; the next port's is no
address at all. -/
theorem dot1x_identity_wide_port_defect :
    macBytes (getMacStr 0 65536) = macBytes (getMacStr 0 4096) ∧ ¬ IsMac (getMacStr 0 (65536 + 256)) := by
  have h1 : macBytes (getMacStr 0 65536) = macBytes (getMacStr 0 4096) := by decide +kernel
  have h2 : macBytes (getMacStr 0 (65536 + 256)) = some [0, 0, 0, 0, 16, 256] := by decide +kernel
  refine ⟨h1, ?_⟩
  rintro ⟨bs, hbs, -, hb⟩
  rw [h2] at hbs
  obtain rfl := Option.some.inj hbs
  exact absurd (hb 256 (by simp)) (by omega)

example : (7 : Nat) < 256 ∧ (300 : Nat) < 65536 ∧ getMacStr 7 300 = "00:00:00:07:01:2c".toList := by
  refine ⟨by omega, by omega, by decide⟩

/-! ## C43 -/

open Faucet.Learn

theorem egressMetadata_val (p vid : Nat) : (egressMetadata p vid).1 = vid * 4096 + p % 4096 := by
  unfold egressMetadata
  have h1 : p &&& 0xfff = p % 4096 := Nat.and_two_pow_sub_one_eq_mod p 12
  have h2 : p % 4096 < 2 ^ 12 := Nat.mod_lt _ (by omega)
  show vid <<< 12 ||| (p &&& 0xfff) = _
  rw [h1, ← Nat.shiftLeft_add_eq_or_of_lt h2, Nat.shiftLeft_eq]

/-- Specification: the switch sees only the bits of the metadata word that the mask selects. -/
def seen (m : Nat × Nat) : Nat := m.1 &&& m.2

/-- **C43 (partial: ports below 4096).** The metadata the switch matches identifies port and VLAN: two pairs with port
numbers below 4096 and legal VIDs that look the same to the switch are the same, and both parts can be read back.
Missing: ports of 4096 and above, which collide (`egress_metadata_wide_port_defect`). -/
theorem egress_metadata_identifies_partial {p q v w : Nat} (hp : p < 4096) (hq : q < 4096) (hv : v < 4096) (hw : w < 4096)
    (h : seen (egressMetadata p v) = seen (egressMetadata q w)) : p = q ∧ v = w := by
  have hs : ∀ a b, a < 4096 → b < 4096 → seen (egressMetadata a b) = b * 4096 + a := by
    intro a b ha hb
    unfold seen
    rw [egressMetadata_val]
    have : (egressMetadata a b).2 = 2 ^ 24 - 1 := rfl
    rw [this, Nat.and_two_pow_sub_one_eq_mod, Nat.mod_eq_of_lt ha, Nat.mod_eq_of_lt (by omega)]
  rw [hs p v hp hv, hs q w hq hw] at h
  omega

/-- The metadata never sets a bit outside its mask, so the match value equals the value written. -/
theorem egress_metadata_within_mask {p v : Nat} (hv : v < 4096) :
    seen (egressMetadata p v) = (egressMetadata p v).1 := by
  unfold seen
  rw [egressMetadata_val]
  have : (egressMetadata p v).2 = 2 ^ 24 - 1 := rfl
  rw [this, Nat.and_two_pow_sub_one_eq_mod, Nat.mod_eq_of_lt (by omega)]

/-- Finding: ports whose numbers agree modulo 4096 share their metadata, so the egress table cannot tell them apart. -/
theorem egress_metadata_wide_port_defect (p v : Nat) : egressMetadata (p + 4096) v = egressMetadata p v := by
  have h1 : (egressMetadata (p + 4096) v).1 = (egressMetadata p v).1 := by
    rw [egressMetadata_val, egressMetadata_val]; omega
  exact Prod.ext h1 rfl

example : seen (egressMetadata 3 100) = 100 * 4096 + 3 := by decide

/-! ## C44 -/

/-- **C44.** For every legal VID, setting the present bit gives a value with the bit set and clearing it returns the VID. -/
theorem vid_present_roundtrip {v : Nat} (hv : v < 4096) :
    devidPresent (vidPresent v) = v ∧ vidPresent v = v + 4096 ∧ (vidPresent v).testBit 12 = true := by
  have hor : v ||| 4096 = v + 4096 := by
    have := Nat.shiftLeft_add_eq_or_of_lt (show v < 2 ^ 12 by omega) 1
    rw [Nat.or_comm, show (4096 : Nat) = 1 <<< 12 from rfl, ← this]; omega
  refine ⟨?_, hor, ?_⟩
  · apply Nat.eq_of_testBit_eq
    intro i
    unfold devidPresent vidPresent
    rw [Nat.testBit_xor, Nat.testBit_or, show vidPresentBit = 2 ^ 12 from rfl, Nat.testBit_two_pow]
    by_cases hi : 12 = i
    · subst hi
      rw [Nat.testBit_lt_two_pow (by omega : v < 2 ^ 12)]; rfl
    · simp [hi]
  · unfold vidPresent
    rw [Nat.testBit_or, show vidPresentBit = 2 ^ 12 from rfl, Nat.testBit_two_pow]; simp

/-- Distinct legal VIDs stay distinct. -/
theorem vid_present_injective {v w : Nat} (hv : v < 4096) (hw : w < 4096) (h : vidPresent v = vidPresent w) : v = w := by
  rw [← (vid_present_roundtrip hv).1, h, (vid_present_roundtrip hw).1]

example : devidPresent (vidPresent 4095) = 4095 := by decide

/-! ## C45 -/

/-- Specification, from RFC 791: fields of an IPv4 header given as bytes. -/
structure Ipv4Header (data : List Nat) where
  long : 20 ≤ data.length
  bytes : ∀ b ∈ data, b < 256

/-- Header length in 32-bit words: low half of the first byte. -/
def ihl (data : List Nat) : Nat := data.getD 0 0 % 16
/-- The more-fragments flag: bit 5 of byte 6. -/
def moreFragments (data : List Nat) : Bool := data.getD 6 0 / 32 % 2 == 1
/-- The 13-bit fragment offset. -/
def fragOffset (data : List Nat) : Nat := data.getD 6 0 % 32 * 256 + data.getD 7 0
/-- Part of a larger datagram. -/
def IsFragment (data : List Nat) : Prop := moreFragments data = true ∨ fragOffset data ≠ 0
/-- A protocol the controller parses. -/
def knownProto (data : List Nat) : Prop := data.getD 9 0 = 1 ∨ data.getD 9 0 = 17 ∨ data.getD 9 0 = 6

theorem getD_take (data : List Nat) (i : Nat) (hi : i < 20) : (data.take 20).getD i 0 = data.getD i 0 := by
  simp [List.getD, List.getElem?_take, hi]

theorem getD_lt {data : List Nat} (h : ∀ b ∈ data, b < 256) (i : Nat) : data.getD i 0 < 256 := by
  by_cases hi : i < data.length
  · rw [List.getD_eq_getElem _ _ hi]; exact h _ (List.getElem_mem hi)
  · rw [List.getD_eq_default _ _ (by omega)]; omega

/-- What the check accepts, exactly. -/
theorem ipv4_parseable_iff {data : List Nat} (h : Ipv4Header data) :
    ipv4Parseable data = some true ↔
      5 ≤ ihl data ∧ moreFragments data = false ∧ (fragOffset data = 0 ∨ fragOffset data = 4096) ∧ knownProto data := by
  obtain ⟨hl, hb⟩ := h
  have h6 := getD_lt hb 6
  have h7 := getD_lt hb 7
  unfold ipv4Parseable
  simp only [List.length_take]
  rw [if_neg (by omega), getD_take _ _ (by omega), getD_take _ _ (by omega), getD_take _ _ (by omega),
    getD_take _ _ (by omega)]
  unfold ihl moreFragments fragOffset knownProto
  generalize data.getD 0 0 = b0 at *
  generalize data.getD 6 0 = b6 at *
  generalize data.getD 7 0 = b7 at *
  generalize data.getD 9 0 = b9 at *
  have e1 : b0 &&& 15 = b0 % 16 := Nat.and_two_pow_sub_one_eq_mod b0 4
  have e2 : (b6 * 256 + b7) &&& 4095 = (b6 * 256 + b7) % 4096 := Nat.and_two_pow_sub_one_eq_mod _ 12
  have e3 : ((b6 * 256 + b7) >>> 12 &&& 2 ≠ 0) ↔ b6 / 32 % 2 = 1 := by
    rw [Nat.shiftRight_eq_div_pow]
    have : (b6 * 256 + b7) / 2 ^ 12 = b6 / 16 := by omega
    rw [this]
    have hlt : b6 / 16 < 16 := by omega
    have hdd : b6 / 32 = b6 / 16 / 2 := by omega
    rw [hdd]
    clear this hdd e1 e2
    generalize b6 / 16 = x at hlt ⊢
    revert hlt
    revert x
    decide
  rw [e1, e2]
  simp only [Option.some.injEq]
  by_cases c1 : b0 % 16 * 4 < 20
  · rw [if_pos c1]; simp only [Bool.false_eq_true, false_iff]; omega
  · rw [if_neg c1]
    by_cases c2 : (b6 * 256 + b7) >>> 12 &&& 2 ≠ 0
    · rw [if_pos c2]
      have := e3.1 c2
      simp [this]
    · rw [if_neg c2]
      have c2' : b6 / 32 % 2 = 0 := by
        have := mt e3.2 c2; omega
      by_cases c3 : (b6 * 256 + b7) % 4096 ≠ 0
      · rw [if_pos c3]; simp only [Bool.false_eq_true, false_iff]; omega
      · rw [if_neg c3]
        simp only [Bool.or_eq_true, beq_iff_eq, c2']
        constructor
        · rintro ((h | h) | h)
          · exact ⟨by omega, by simp, by omega, Or.inl h⟩
          · exact ⟨by omega, by simp, by omega, Or.inr (Or.inl h)⟩
          · exact ⟨by omega, by simp, by omega, Or.inr (Or.inr h)⟩
        · rintro ⟨-, -, -, h⟩
          tauto

/-- **C45 (partial).** Fragments are rejected, except a last fragment at offset exactly 4096 (32768 bytes into the
datagram). Missing: that one offset, which is accepted (`fragment_offset_defect`). -/
theorem fragments_rejected_partial {data : List Nat} (h : Ipv4Header data) (hf : IsFragment data)
    (hoff : fragOffset data ≠ 4096) : ipv4Parseable data = some false := by
  have hne : ipv4Parseable data ≠ some true := by
    rw [Ne, ipv4_parseable_iff h]
    rintro ⟨-, hm, ho, -⟩
    rcases hf with hf | hf
    · rw [hf] at hm; simp at hm
    · omega
  have hd : ∃ b, ipv4Parseable data = some b := by
    unfold ipv4Parseable
    simp only [List.length_take]
    rw [if_neg (by have := h.long; omega)]
    exact ⟨_, rfl⟩
  obtain ⟨b, hb⟩ := hd
  cases b with
  | true => exact absurd hb hne
  | false => exact hb

/-- **C45 (acceptance).** A complete packet with a well-formed header and a known protocol is accepted. -/
theorem complete_accepted {data : List Nat} (h : Ipv4Header data) (hi : 5 ≤ ihl data) (hf : ¬ IsFragment data)
    (hp : knownProto data) : ipv4Parseable data = some true := by
  rw [ipv4_parseable_iff h]
  unfold IsFragment at hf
  refine ⟨hi, ?_, Or.inl ?_, hp⟩
  · cases hm : moreFragments data with
    | true => exact absurd (Or.inl hm) hf
    | false => rfl
  · by_contra hc; exact hf (Or.inr hc)

/-- A truncated header is never parsed. -/
theorem short_header_raises {data : List Nat} (h : data.length < 20) : ipv4Parseable data = none := by
  unfold ipv4Parseable
  simp only [List.length_take]
  rw [if_pos (by omega)]

/-- A UDP packet with the given flags-and-offset bytes. -/
def sampleHeader (b6 b7 : Nat) : List Nat := [0x45, 0, 0, 40, 0, 1, b6, b7, 64, 17, 0, 0, 10, 0, 0, 1, 10, 0, 0, 2]

/-- Finding: the offset is masked with `0xFFF`, dropping its top bit, so the last fragment of a datagram that starts
32768 bytes in is taken for a complete packet. -/
theorem fragment_offset_defect :
    IsFragment (sampleHeader 0x10 0) ∧ ipv4Parseable (sampleHeader 0x10 0) = some true := by
  refine ⟨Or.inr (by decide), by decide⟩

example : Ipv4Header (sampleHeader 0x20 5) ∧ IsFragment (sampleHeader 0x20 5) ∧ fragOffset (sampleHeader 0x20 5) ≠ 4096 :=
  ⟨⟨by decide, by decide⟩, Or.inl (by decide), by decide⟩

example : Ipv4Header (sampleHeader 0x40 0) ∧ 5 ≤ ihl (sampleHeader 0x40 0) ∧ ¬ IsFragment (sampleHeader 0x40 0) ∧
    knownProto (sampleHeader 0x40 0) :=
  ⟨⟨by decide, by decide⟩, by decide, by unfold IsFragment; decide, by unfold knownProto; decide⟩

/-! ## C53: mask bits -/

theorem mask_inj {i j : Nat} (hi : i ≤ 48) (hj : j ≤ 48) (h : 2 ^ 48 - 2 ^ i = 2 ^ 48 - 2 ^ j) : i = j := by
  have a := Nat.pow_le_pow_right (n := 2) (by omega) hi
  have b := Nat.pow_le_pow_right (n := 2) (by omega) hj
  exact Nat.pow_right_injective (Nat.le_refl 2) (by show 2 ^ i = 2 ^ j; omega)

/-- A mask whose top `k` of 48 bits are set weighs `k`. -/
theorem macMaskBits_prefix {k : Nat} (hk : k ≤ 48) : macMaskBits (some (2 ^ 48 - 2 ^ (48 - k))) = k := by
  unfold macMaskBits macMaskBitmap euiBits
  simp only
  cases hf : (List.range (48 + 1)).find? (fun i => 2 ^ 48 - 2 ^ i == 2 ^ 48 - 2 ^ (48 - k)) with
  | none =>
    rw [List.find?_eq_none] at hf
    exact absurd (hf (48 - k) (List.mem_range.2 (by omega))) (by simp)
  | some i =>
    have h1 := List.find?_some hf
    have h2 := List.mem_of_find?_eq_some hf
    rw [List.mem_range] at h2
    have := mask_inj (by omega) (by omega) (beq_iff_eq.1 h1)
    subst this
    simp only
    omega

/-- Byte masks weigh eight per byte. -/
theorem macMaskBits_byteMask {n : Nat} (hn : n ≤ 6) : macMaskBits (some (macByteMask n)) = 8 * n := by
  unfold macByteMask
  exact macMaskBits_prefix (by omega)

end Faucet.Encoding
