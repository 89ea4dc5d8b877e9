import Verif.Stack.Link

/-!
# LLDP beacons: what is sent, what arrives, what is read

FAUCET sends beacons from its ports; switches of a stack recognise each other by them. Here are the frames, byte by byte, what
the rule for LLDP lets through to FAUCET, and what FAUCET reads in it. `Verif.Stack.Link` says what becomes of the link then.
The format of TLVs is that of IEEE 802.1AB; the library that writes and reads it is not in the repository, and its checks are
modelled as in `decode`. Names are their UTF-8 bytes.
-/

namespace Faucet.Lldp

abbrev Bytes := List Nat

/-! ## Decimal numbers -/

/-- Decimal digits, most significant first; the first argument only bounds the recursion. -/
def digitsF : Nat → Nat → List Nat
  | 0, _ => []
  | f + 1, n => if n < 10 then [n] else digitsF f (n / 10) ++ [n % 10]

/-- `str(n).encode("utf-8")`, as in `faucet/valve_packet.py` 290 and 324, of a number that is not negative. -/
def dec (n : Nat) : Bytes := (digitsF (n + 1) n).map (· + 48)

/-- `str(i).encode("utf-8")`, as in 338. -/
def decInt : Int → Bytes
  | .ofNat n => dec n
  | .negSucc n => 45 :: dec (n + 1)

/-- Digits only, and at least one. -/
def readNat (b : Bytes) : Option Nat :=
  if b ≠ [] ∧ b.all (fun d => decide (48 ≤ d ∧ d ≤ 57)) then some (b.foldl (fun a d => a * 10 + (d - 48)) 0) else none

/-- `int(b)` of bytes. Python also takes white space around the number, a plus sign and underscores between digits; these are
not modelled (FAUCET does not write them). -/
def readInt (b : Bytes) : Option Int :=
  match b with
  | 45 :: r => (readNat r).map (fun n => - (n : Int))
  | _ => (readNat b).map (fun n => (n : Int))

/-! ## TLVs -/

/-- A TLV: type and value. -/
abbrev Tlv := Nat × Bytes

def tEnd : Nat := 0
def tChassis : Nat := 1
def tPort : Nat := 2
def tTtl : Nat := 3
def tPortDescr : Nat := 4
def tSysName : Nat := 5
def tOrg : Nat := 127

/-- Type in 7 bits, length in 9, value. -/
def encodeTlv (t : Tlv) : Bytes := [t.1 * 2 + t.2.length / 256, t.2.length % 256] ++ t.2

def encode (ts : List Tlv) : Bytes := ts.flatMap encodeTlv

/-- Reads TLVs up to the end TLV. A TLV that is cut off or an end that is missing is an error. The first argument only bounds
the recursion. -/
def decodeF : Nat → Bytes → Option (List Tlv)
  | f + 1, h :: l :: r =>
    let n := (h % 2) * 256 + l
    if r.length < n then none
    else if h / 2 = tEnd then some [(tEnd, r.take n)]
    else (decodeF f (r.drop n)).map ((h / 2, r.take n) :: ·)
  | _, _ => none

/-- The first three TLVs must be those that the standard asks for. -/
def decode (b : Bytes) : Option (List Tlv) :=
  (decodeF b.length b).bind (fun ts => if (ts.map (·.1)).take 3 = [tChassis, tPort, tTtl] then some ts else none)

/-! ## Beacons -/

/-- A datapath: `faucet/dp.py` 116-130 and 413-426. -/
structure Dp where
  /-- `faucet_dp_mac`, 6 bytes -/
  mac : Bytes
  dpId : Nat
  name : Bytes
  /-- `lldp_beacon: system_name`, if configured -/
  sysName : Option Bytes := none
  /-- `lldp_beacon: send_interval` -/
  interval : Nat := 5

/-- A port that sends beacons: `faucet/port.py` 208-219 and 438-465. -/
structure Port where
  number : Nat
  /-- `lldp_beacon: system_name`, if configured -/
  sysName : Option Bytes := none
  /-- `lldp_beacon: port_descr`, by default the description of the port, by default its name -/
  descr : Option Bytes := none
  /-- `lldp_beacon: org_tlvs` -/
  orgTlvs : List (Bytes × Nat × Bytes) := []
  /-- for a stack port, `dyn_stack_current_state` -/
  stack : Option Int := none

/-- `faucet_oui`, `faucet/valve_packet.py` 315-317. -/
def oui (mac : Bytes) : Bytes := mac.take 3

def sDpId : Nat := 1
def sState : Nat := 2

/-- `faucet_lldp_tlvs`, `faucet/valve_packet.py` 320-326. -/
def dpTlvs (d : Dp) : List (Bytes × Nat × Bytes) := [(oui d.mac, sDpId, dec d.dpId)]

/-- `faucet_lldp_stack_state_tlvs`, `faucet/valve_packet.py` 329-341. -/
def stateTlvs (d : Dp) (p : Port) : List (Bytes × Nat × Bytes) :=
  match p.stack with
  | none => []
  | some i => [(oui d.mac, sState, decInt i)]

/-- The system name in a beacon, `faucet/valve.py` 741-743 with `faucet/dp.py` 425-426. -/
def systemName (d : Dp) (p : Port) : Bytes :=
  match p.sysName with
  | none => d.sysName.getD d.name
  | some b => if b = [] then d.sysName.getD d.name else b

def orgTlv (t : Bytes × Nat × Bytes) : Tlv := (tOrg, t.1 ++ t.2.1 :: t.2.2)

/-- `ttl`, `faucet/valve.py` 730-734. -/
def ttl (d : Dp) : Nat := min (d.interval * 3) 65535

/-- The TLV of the description of a port, `faucet/valve_packet.py` 294-300: left out when there is none. -/
def descrTlvs (p : Port) : List Tlv :=
  match p.descr with
  | none => []
  | some b => [(tPortDescr, b)]

/-- `lldp_beacon`, `faucet/valve_packet.py` 267-312: the TLVs; and `_send_lldp_beacon_on_port`, `faucet/valve.py` 728-752. -/
def beaconTlvs (d : Dp) (p : Port) : List Tlv :=
  [(tChassis, 4 :: d.mac), (tPort, 5 :: dec p.number), (tTtl, [ttl d / 256, ttl d % 256]), (tSysName, systemName d p)]
  ++ descrTlvs p
  ++ (p.orgTlvs ++ dpTlvs d ++ stateTlvs d p).map orgTlv
  ++ [(tEnd, [])]

/-- `LLDP_MAC_NEAREST_BRIDGE`. -/
def nearestBridge : Bytes := [0x01, 0x80, 0xc2, 0x00, 0x00, 0x0e]

/-- The frame: destination, source, type (`build_pkt_header`, `faucet/valve_packet.py` 244-264), TLVs. -/
def frame (d : Dp) (p : Port) : Bytes := nearestBridge ++ d.mac ++ [0x88, 0xcc] ++ encode (beaconTlvs d p)

/-! ## Receiving -/

/-- `max_len` of the rule for LLDP, `faucet/valve_lldp.py` 60-69: a switch that heeds it sends that much
of the frame to FAUCET. -/
def maxLen : Nat := 128

/-- `lldp_handler` up to `parse_lldp`, `faucet/valve.py` 1012-1017 and `faucet/valve_packet.py` 164-215: the TLVs of a packet-in,
if it is LLDP and can be read. -/
def readLldp (data : Bytes) : Option (List Tlv) :=
  if (data.drop 12).take 2 = [0x88, 0xcc] then decode (data.drop 14) else none

/-- `tlvs_by_type`, `faucet/valve_packet.py` 344-346. -/
def byType (ts : List Tlv) (t : Nat) : List Bytes := (ts.filter (fun x => x.1 == t)).map (·.2)

/-- `faucet_tlvs`, 365-371. -/
def faucetTlvs (ts : List Tlv) (mac : Bytes) : List Bytes := (byType ts tOrg).filter (fun v => v.take 3 == oui mac)

/-- `tlv.subtype == subtype` of an organisationally specific TLV: the byte after the vendor. -/
def hasSubtype (s : Nat) (v : Bytes) : Bool := (v.drop 3).head? == some s

/-- `tlv.info`: what comes after the subtype. -/
def info (v : Bytes) : Bytes := v.drop 4

/-- `tlvs_by_subtype`, 349-351, of organisationally specific TLVs: the fields `info`. -/
def bySubtype (vs : List Bytes) (s : Nat) : List Bytes := (vs.filter (hasSubtype s)).map info

/-- `tlv_cast`, 354-362: the first of the TLVs. -/
def castFirst {α : Type} (f : Bytes → Option α) (vs : List Bytes) : Option α := vs.head?.bind f

/-- What FAUCET reads: `remote_dp_id`, `remote_dp_name`, `remote_port_id`, `remote_port_state`. -/
structure Info where
  dpId : Option Int
  name : Option Bytes
  port : Option Int
  state : Option Int
deriving DecidableEq

/-- `parse_faucet_lldp`, `faucet/valve_packet.py` 374-391. The port ID has a byte for its subtype first. -/
def parse (ts : List Tlv) (mac : Bytes) : Info :=
  if faucetTlvs ts mac = [] then ⟨none, none, none, none⟩
  else
    ⟨castFirst readInt (bySubtype (faucetTlvs ts mac) sDpId), castFirst some (byType ts tSysName),
      castFirst readInt ((byType ts tPort).map (List.drop 1)), castFirst readInt (bySubtype (faucetTlvs ts mac) sState)⟩

/-- What FAUCET reads in a frame that comes in at a switch with this `faucet_dp_mac`; `none` if it cannot be read. -/
def hear (mac : Bytes) (fr : Bytes) : Option Info := (readLldp (fr.take maxLen)).map (fun ts => parse ts mac)

end Faucet.Lldp
