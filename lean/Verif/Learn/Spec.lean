import Verif.Learn.Model

/-!
# Vocabulary for the learning properties (C03-C06, C55, C56)
-/

namespace Faucet.Learn
open Faucet.OF
open Faucet.HostCache (Port Entry)

/-- What the configuration parser guarantees: ports are keyed by their number; tables have distinct ids,
except that the classification table may be the source table; all rules carry the datapath's cookie. -/
structure Cfg.WF (cfg : Cfg) : Prop where
  portNum : ∀ n, (cfg.port n).number = n
  srcDst : cfg.ethSrc.id ≠ cfg.ethDst.id
  classDst : cfg.classification.id ≠ cfg.ethDst.id
  srcReal : cfg.ethSrc.id ≠ tableAll
  dstReal : cfg.ethDst.id ≠ tableAll
  classReal : cfg.classification.id ≠ tableAll
  hairpinOk : ∀ t, cfg.hairpin = some t →
    t.id ≠ tableAll ∧ t.id ≠ cfg.ethSrc.id ∧ t.id ≠ cfg.ethDst.id ∧ t.id ≠ cfg.classification.id ∧
      t.cookie = cfg.ethSrc.cookie
  dstCookie : cfg.ethDst.cookie = cfg.ethSrc.cookie
  classCookie : cfg.classification.cookie = cfg.ethSrc.cookie

/-- The host table's answer for a MAC on a VLAN. -/
def host (st : St) (vid m : Nat) : Option Entry := HostCache.cachedHost (st.vlan vid).hosts m

/-- A packet is not learned because a limit is reached and its host is new. -/
def LimitReached (cfg : Cfg) (st : St) (n vid m : Nat) : Prop :=
  host st vid m = none ∧
    (((cfg.port n).maxHosts ≠ 0 ∧ portHostsCount cfg st (cfg.port n) = (cfg.port n).maxHosts) ∨
     (cfg.vlanMax vid ≠ 0 ∧ HostCache.hostsCount (st.vlan vid).hosts = cfg.vlanMax vid))

/-- The host is permanently learned. -/
def Permanent (st : St) (vid m : Nat) : Prop := ∃ e, host st vid m = some e ∧ e.port.permanentLearn = true

/-- The host was recently seen on this port (or another member of the same LAG), and the port has not
changed status since. -/
def Fresh (cfg : Cfg) (st : St) (now : Int) (n vid m : Nat) : Prop :=
  ∃ e t, host st vid m = some e ∧
    (((cfg.port n).lacp ≠ 0 ∧ (cfg.port n).lacp = e.port.lacp ∧ now - e.cacheTime < 2) ∨
     (¬ ((cfg.port n).lacp ≠ 0 ∧ (cfg.port n).lacp = e.port.lacp) ∧ e.port.number = n ∧
        now - e.cacheTime < cfg.guard)) ∧
    (st.port n).updateTime = some t ∧ t ≤ e.cacheTime

/-- The port is, or gets, banned for loop protection. -/
def LoopBanned (cfg : Cfg) (st : St) (now : Int) (n vid m : Nat) : Prop :=
  (cfg.port n).loopProtect = true ∧
    ((∃ b, (st.port n).lastBan = some b ∧ b ≠ 0 ∧ now - b < cfg.guard) ∨
     (∃ e, host st vid m = some e ∧ e.port.number ≠ n ∧ now - e.cacheTime < cfg.guard))

/-- The event takes a host learned on port `n` away for an administrative reason: the port goes down, the
switch reconnects, or the switch reports that the host's (never expiring) source rule is gone. -/
def Ev.takesDown (n : Nat) : Ev → Bool
  | .portDelete n' => n' == n
  | .coldStart _ => true
  | .srcRemoved _ n' _ => n' == n
  | _ => false

/-- VIDs in the event are valid. -/
def Ev.vidOk : Ev → Prop
  | .packet _ _ vid _ => vid < 4096
  | .dstRemoved _ vid _ => vid < 4096
  | _ => True

/-- Time of an event. -/
def Ev.time? : Ev → Option Int
  | .packet now .. => some now
  | .expire now _ => some now
  | .coldStart now => some now
  | .portUpdate now _ => some now
  | .dstRemoved now .. => some now
  | _ => none

/-- The clock never runs backwards. -/
def MonotoneClock (evs : List Ev) : Prop := (evs.filterMap Ev.time?).Pairwise (· ≤ ·)

/-- Slot of the rule that forwards to a host. -/
def dstSlot (cfg : Cfg) (vid m : Nat) : Slot := ⟨cfg.ethDst.id, matchPriority, dstItems m vid (extFlag cfg)⟩

/-- Slot of the rule that accepts packets from a host on a port. -/
def srcSlot (cfg : Cfg) (q vid m : Nat) : Slot :=
  ⟨cfg.ethSrc.id, matchPriority - 1, [iInPort q, iEthSrc m, iVlan vid]⟩

/-- Slot of the rule that sends packets for a host back to the port they came from. -/
def hairpinSlot (t : Table) (q vid m : Nat) : Slot :=
  ⟨t.id, matchPriority, [iInPort q, iEthDst m, iVlan vid]⟩

end Faucet.Learn
