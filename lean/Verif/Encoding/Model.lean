import Verif.OpenFlow.Table
import Verif.Learn.Model

/-!
# Encodings: VIDs in MACs, 802.1x identities, egress metadata, IPv4 pre-parse, MAC masks

Python strings are lists of characters.
-/

namespace Faucet.Encoding

abbrev Str := List Char

/-! ## Python string primitives used below -/

/-- One lower-case hexadecimal digit, as `%x` prints it. -/
def hexDigit : Nat → Char
  | 0 => '0' | 1 => '1' | 2 => '2' | 3 => '3' | 4 => '4' | 5 => '5' | 6 => '6' | 7 => '7'
  | 8 => '8' | 9 => '9' | 10 => 'a' | 11 => 'b' | 12 => 'c' | 13 => 'd' | 14 => 'e' | _ => 'f'

/-- Value of a hexadecimal digit, as `int(_, 16)` reads it; upper case is accepted too. -/
def hexVal : Char → Option Nat
  | '0' => some 0 | '1' => some 1 | '2' => some 2 | '3' => some 3 | '4' => some 4 | '5' => some 5
  | '6' => some 6 | '7' => some 7 | '8' => some 8 | '9' => some 9
  | 'a' => some 10 | 'b' => some 11 | 'c' => some 12 | 'd' => some 13 | 'e' => some 14 | 'f' => some 15
  | 'A' => some 10 | 'B' => some 11 | 'C' => some 12 | 'D' => some 13 | 'E' => some 14 | 'F' => some 15
  | _ => none

/-- `"%x" % n`; the first argument bounds the number of digits. -/
def toHexAux : Nat → Nat → Str
  | 0, n => [hexDigit n]
  | fuel + 1, n => if n < 16 then [hexDigit n] else toHexAux fuel (n / 16) ++ [hexDigit (n % 16)]

/-- `"%x" % n`. -/
def toHex (n : Nat) : Str := toHexAux n n

/-- `"%0wx" % n`: at least `w` digits. -/
def toHexPad (w n : Nat) : Str := List.replicate (w - (toHex n).length) '0' ++ toHex n

/-- Reading digits, most significant first. -/
def parseFold (acc : Option Nat) (c : Char) : Option Nat :=
  acc.bind (fun a => (hexVal c).map (fun d => a * 16 + d))

/-- `int(s, 16)` for plain digit strings (Python also takes blanks, signs, underscores and a `0x` prefix, which
MAC addresses do not have); `none` is `ValueError`. -/
def parseHex (s : Str) : Option Nat := if s = [] then none else s.foldl parseFold (some 0)

/-- `s.split(":")`. -/
def split : Str → List Str
  | [] => [[]]
  | c :: cs =>
    if c = ':' then [] :: split cs
    else match split cs with
      | [] => [[c]]
      | f :: fs => (c :: f) :: fs

/-- `":".join(parts)`. -/
def join : List Str → Str
  | [] => []
  | [p] => p
  | p :: q :: ps => p ++ ':' :: join (q :: ps)

/-! ## VIDs in MAC addresses -/

/-- Lines 102-103 of `faucet/valve_packet.py` for the two values. -/
def hiLo (hi lo : Str) : Option Nat :=
  match parseHex hi, parseHex lo with
  | some h, some l => some ((h <<< 8) + l)
  | _, _ => none

/-- `int_from_mac`, `faucet/valve_packet.py` 101-104. `none` is `ValueError` (unpacking or parsing). -/
def intFromMac (mac : Str) : Option Nat :=
  match (split mac).reverse with
  | lo :: hi :: _ => hiLo hi lo
  | _ => none

/-- `int_in_mac`, `faucet/valve_packet.py` 106-110. -/
def intInMac (mac : Str) (n : Nat) : Str := join ((split mac).take 4 ++ [toHex (n >>> 8), toHex (n &&& 0xff)])

/-- A MAC address as the packet library prints it: six bytes, two digits each. -/
def printMac (bytes : List Nat) : Str := join (bytes.map (toHexPad 2))

/-! ## 802.1x -/

/-- `get_mac_str`, `faucet/faucet_dot1x.py` 25-36. -/
def getMacStr (valveIndex portNum : Nat) : Str :=
  let p := toHexPad 4 portNum
  "00:00:00:".toList ++ toHexPad 2 valveIndex ++ ':' :: (p.take 2 ++ ':' :: p.drop 2)

/-! ## IPv4 -/

/-- `ipv4_parseable`, `faucet/valve_packet.py` 113-133, on the first bytes of an IPv4 header. `none` is
`struct.error` for fewer than 20 bytes. `* 32 / 8` is a float in Python; the value is exact. -/
def ipv4Parseable (data : List Nat) : Option Bool :=
  let h := data.take 20
  if h.length < 20 then none
  else
    let b0 := h.getD 0 0
    let frag := h.getD 6 0 * 256 + h.getD 7 0
    let proto := h.getD 9 0
    some (if (b0 &&& 0xf) * 4 < 20 then false
      else if (frag >>> 12) &&& 0x2 ≠ 0 then false
      else if frag &&& 0xfff ≠ 0 then false
      else proto == 1 || proto == 17 || proto == 6)

/-! ## MAC masks -/

/-- `EUI_BITS`, `faucet/valve_packet.py` 87. -/
def euiBits : Nat := 48

/-- `MAC_MASK_BITMAP.get(value, 0)`, `faucet/valve_packet.py` 88 and 97: the number of bits of a prefix mask, else 0. -/
def macMaskBitmap (value : Nat) : Nat :=
  match (List.range (euiBits + 1)).find? (fun i => 2 ^ euiBits - 2 ^ i == value) with
  | some i => euiBits - i
  | none => 0

/-- `mac_mask_bits`, `faucet/valve_packet.py` 92-98. -/
def macMaskBits (mask : Option Nat) : Nat :=
  match mask with
  | some v => macMaskBitmap v
  | none => 0

/-- Value of `mac_byte_mask(n)`, `faucet/valve_packet.py` 135-138: `n` bytes `ff`, then zeros. -/
def macByteMask (n : Nat) : Nat := 2 ^ 48 - 2 ^ (48 - 8 * n)

end Faucet.Encoding
