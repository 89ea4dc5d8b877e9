import Verif.Route.Answer
import Verif.Route.Props
import Mathlib.Tactic.ByContra

/-!
# The router answers for itself, once, and to whoever asked

Theorems about what the router says: ARP and neighbour discovery for its addresses, pings, expired packets, router
solicitations and advertisements.
-/

namespace Faucet.Route
open Faucet

/-! ## Specification -/

/-- The address is one of the router's in the VLAN. -/
def Owns (v : Vlan) (a : Nat) : Prop := ∃ x ∈ v.vips, x.ip = a

/-- The address is in the network of the VIP: the leading bits agree. -/
def InNet (w : Nat) (x : Vip) (a : Nat) : Prop := a / 2 ^ (w - x.len) = x.ip / 2 ^ (w - x.len)

/-- The remaining bits are neither all zero nor all one. -/
def HostBits (w : Nat) (x : Vip) (a : Nat) : Prop := a % 2 ^ (w - x.len) ≠ 0 ∧ a % 2 ^ (w - x.len) + 1 ≠ 2 ^ (w - x.len)

/-- The address is that of a host of one of the VLAN's networks. -/
def OnLink (w : Nat) (v : Vlan) (a : Nat) : Prop := ∃ x ∈ v.vips, InNet w x a ∧ HostBits w x a

/-- VIPs are addresses with prefix lengths. -/
def AddrsOk (w : Nat) (v : Vlan) : Prop := ∀ x ∈ v.vips, x.len ≤ w ∧ x.ip < 2 ^ w

/-- No address is in the networks of two VIPs of the VLAN. -/
def Apart (w : Nat) (v : Vlan) : Prop := ∀ x ∈ v.vips, ∀ y ∈ v.vips, ∀ a, a < 2 ^ w → InNet w x a → InNet w y a → x = y

/-- Addresses of a packet to the controller. -/
def Body.src : Body → Nat
  | .arp _ s _ => s
  | .ip4 s _ _ _ _ => s
  | .ip6 s _ _ _ _ _ _ => s
  | .other => 0

/-- In whose name and to whom the router speaks. -/
def Said.src : Said → Nat
  | .arpReply _ s _ _ => s
  | .echo4 s _ _ _ _ => s
  | .exceeded4 s _ _ => s
  | .ndAdvert s _ _ _ _ => s
  | .echo6 s _ _ _ _ _ => s
  | .exceeded6 s _ _ => s
  | .routerAdvert s _ _ _ _ => s

def Said.dst : Said → Nat
  | .arpReply _ _ _ d => d
  | .echo4 _ d _ _ _ => d
  | .exceeded4 _ d _ => d
  | .ndAdvert _ d _ _ _ => d
  | .echo6 _ d _ _ _ _ => d
  | .exceeded6 _ d _ => d
  | .routerAdvert _ d _ _ _ => d

/-- The MAC address that a reply announces, if any, and the IP address it announces it for. -/
def Said.announces : Said → Option (Nat × Nat)
  | .arpReply sha spa _ _ => some (spa, sha)
  | .ndAdvert _ _ _ target tla => some (target, tla)
  | .routerAdvert s _ _ _ sla => some (s, sla)
  | _ => none

/-! ## Networks -/

theorem vip_netOk {w : Nat} {x : Vip} (hl : x.len ≤ w) (hi : x.ip < 2 ^ w) : NetOk w (x.net w) := by
  refine ⟨hl, mask_idem w x.len x.ip, ?_⟩
  exact Nat.lt_of_le_of_lt Nat.and_le_left hi

theorem contains_inNet {w : Nat} {x : Vip} {a : Nat} (hl : x.len ≤ w) (hi : x.ip < 2 ^ w) (ha : a < 2 ^ w) :
    (x.net w).contains w a = true ↔ InNet w x a := by
  unfold Net.contains Vip.net InNet
  rw [beq_iff_eq, and_mask hl ha, and_mask hl hi]
  constructor
  · intro h
    exact Nat.eq_of_mul_eq_mul_right (Nat.two_pow_pos _) h
  · intro h
    rw [h]

theorem hostOf_bits {w : Nat} {x : Vip} {a : Nat} (hl : x.len ≤ w) (hi : x.ip < 2 ^ w) (ha : InNet w x a) :
    hostOf w a x = some x ↔ HostBits w x a := by
  have hp : 0 < 2 ^ (w - x.len) := Nat.two_pow_pos _
  have h1 : (x.net w).addr = a / 2 ^ (w - x.len) * 2 ^ (w - x.len) := by
    show x.ip &&& mask w x.len = _
    rw [and_mask hl hi, ha]
  have h2 : a / 2 ^ (w - x.len) * 2 ^ (w - x.len) + a % 2 ^ (w - x.len) = a := Nat.div_add_mod' a _
  have h3 : (x.net w).broadcast w = (x.net w).addr + (2 ^ (w - x.len) - 1) := rfl
  unfold hostOf HostBits
  rw [h3, h1]
  constructor
  · intro h
    by_cases hc : a = a / 2 ^ (w - x.len) * 2 ^ (w - x.len) ∨ a = a / 2 ^ (w - x.len) * 2 ^ (w - x.len) + (2 ^ (w - x.len) - 1)
    · rw [if_pos hc] at h
      cases h
    · constructor
      · intro h0
        exact hc (Or.inl (by omega))
      · intro h0
        exact hc (Or.inr (by omega))
  · rintro ⟨hb, hc⟩
    rw [if_neg]
    rintro (h | h)
    · exact hb (by omega)
    · exact hc (by omega)

theorem hostOf_some {w a : Nat} {x y : Vip} (h : hostOf w a x = some y) : y = x := by
  unfold hostOf at h
  split at h
  · cases h
  · exact (Option.some.inj h).symm

theorem vipMap_mem {w : Nat} {v : Vlan} {a : Nat} {x : Vip} (h : v.vipMap w a = some x) :
    x ∈ v.vips ∧ (x.net w).contains w a = true := ⟨List.mem_of_find?_eq_some h, by simpa using List.find?_some h⟩

theorem isVip_owns {w : Nat} {v : Vlan} {a : Nat} (h : v.isVip w a = true) : Owns v a := by
  unfold Vlan.isVip at h
  cases hv : v.vipMap w a with
  | none => rw [hv] at h; cases h
  | some x =>
    rw [hv] at h
    exact ⟨x, (vipMap_mem hv).1, (by simpa using h : a = x.ip).symm⟩

/-- With networks apart, the network found for an address is the only one it is in. -/
theorem vipMap_iff {w : Nat} {v : Vlan} {a : Nat} {x : Vip} (hok : AddrsOk w v) (hap : Apart w v) (ha : a < 2 ^ w) :
    v.vipMap w a = some x ↔ x ∈ v.vips ∧ InNet w x a := by
  constructor
  · intro h
    obtain ⟨h1, h2⟩ := vipMap_mem h
    exact ⟨h1, (contains_inNet (hok x h1).1 (hok x h1).2 ha).1 h2⟩
  · rintro ⟨h1, h2⟩
    have hs : (v.vipMap w a).isSome = true :=
      vipMap_isSome.2 ⟨x, h1, (contains_inNet (hok x h1).1 (hok x h1).2 ha).2 h2⟩
    obtain ⟨y, hy⟩ := Option.isSome_iff_exists.1 hs
    obtain ⟨h3, h4⟩ := vipMap_mem hy
    rw [hy, hap x h1 y h3 a ha h2 ((contains_inNet (hok y h3).1 (hok y h3).2 ha).1 h4)]

theorem isVip_iff {w : Nat} {v : Vlan} {a : Nat} (hok : AddrsOk w v) (hap : Apart w v) :
    v.isVip w a = true ↔ Owns v a := by
  refine ⟨isVip_owns, ?_⟩
  rintro ⟨x, hx, rfl⟩
  have hm := (vipMap_iff (a := x.ip) hok hap (hok x hx).2).2 ⟨hx, rfl⟩
  unfold Vlan.isVip
  rw [hm]
  simp

theorem subnetVip_mem {w : Nat} {v : Vlan} {a : Nat} {x : Vip} (h : v.subnetVip w a = some x) : x ∈ v.vips := by
  unfold Vlan.subnetVip at h
  cases hv : v.vipMap w a with
  | none => rw [hv] at h; cases h
  | some y =>
    rw [hv] at h
    rw [hostOf_some h]
    exact (vipMap_mem hv).1

theorem subnetVip_iff {w : Nat} {v : Vlan} {a : Nat} {x : Vip} (hok : AddrsOk w v) (hap : Apart w v) (ha : a < 2 ^ w) :
    v.subnetVip w a = some x ↔ x ∈ v.vips ∧ InNet w x a ∧ HostBits w x a := by
  unfold Vlan.subnetVip
  constructor
  · intro h
    cases hv : v.vipMap w a with
    | none => rw [hv] at h; cases h
    | some y =>
      rw [hv] at h
      have hxy := hostOf_some h
      subst hxy
      obtain ⟨h1, h2⟩ := (vipMap_iff hok hap ha).1 hv
      exact ⟨h1, h2, (hostOf_bits (hok x h1).1 (hok x h1).2 h2).1 h⟩
  · rintro ⟨h1, h2, h3⟩
    rw [(vipMap_iff hok hap ha).2 ⟨h1, h2⟩]
    exact (hostOf_bits (hok x h1).1 (hok x h1).2 h2).2 h3

theorem subnetVip_onLink {w : Nat} {v : Vlan} {a : Nat} (hok : AddrsOk w v) (hap : Apart w v) (ha : a < 2 ^ w) :
    (v.subnetVip w a).isSome = true ↔ OnLink w v a := by
  rw [Option.isSome_iff_exists]
  constructor
  · rintro ⟨x, h⟩
    exact ⟨x, (subnetVip_iff hok hap ha).1 h⟩
  · rintro ⟨x, h⟩
    exact ⟨x, (subnetVip_iff hok hap ha).2 h⟩

/-! ## The packets sent -/

theorem said_false {r : Res} (h : r.said = false) : r.outs = [] := by
  unfold Res.said at h
  cases ho : r.outs with
  | nil => rfl
  | cons a l => rw [ho] at h; simp at h

theorem orElse_outs (r : Res) (k : St → Res) (hk : ∀ st, (k st).outs = []) : (r.orElse k).outs = r.outs := by
  unfold Res.orElse
  cases h : r.said with
  | true => rw [if_pos rfl]
  | false => rw [if_neg (by decide), hk, said_false h]

theorem proactive_outs (m : Mgr) (e : Env) (st : St) (now : Int) (p : PktIn) : (m.proactiveHandler e st now p).outs = [] := by
  unfold Mgr.proactiveHandler
  split <;> rfl

theorem afterwards_outs (m : Mgr) (e : Env) (now : Int) (p : PktIn) (r : Res) : (m.afterwards e now p r).outs = r.outs := by
  unfold Mgr.afterwards
  cases h : r.said with
  | true => rw [if_pos rfl]
  | false =>
    rw [if_neg (by decide), said_false h]
    split
    · rfl
    · exact said_false h

/-- Whether the router looks at the packet at all, valve.py 1091-1096. -/
def PktIn.seen (p : PktIn) : Prop := p.ethDst = p.vlan.mac ∨ unicastMac p.ethDst = false ∨ p.reason = .invalidTtl

instance (p : PktIn) : Decidable p.seen := by unfold PktIn.seen; infer_instance

/-- What is sent about an ARP packet. -/
theorem rcv_arp (m : Mgr) (e : Env) (st : St) (now : Int) (mem : Members) (p : PktIn) {op src dst : Nat}
    (hb : p.body = .arp op src dst) :
    (m.rcv e st now mem p).outs =
      if p.routed = true ∧ m.width = 32 ∧ p.seen ∧ p.complete = true then (m.arpHandler e st now mem p op src dst).outs else [] := by
  unfold Mgr.rcv Mgr.concerns
  by_cases h1 : p.routed = true <;> by_cases h2 : m.width = 32
  · rw [hb]
    rw [if_pos (by simp [h1, h2]), afterwards_outs]
    unfold Mgr.controlPlane
    by_cases h3 : p.seen
    · rw [if_pos (show p.ethDst = p.vlan.mac ∨ unicastMac p.ethDst = false ∨ p.reason = Reason.invalidTtl from h3)]
      unfold Mgr.handle
      rw [hb]
      simp only
      rw [if_pos h2]
      unfold Mgr.handler4
      rw [hb]
      by_cases h4 : p.complete = true
      · rw [if_pos h4, if_pos ⟨h1, h2, h3, h4⟩]
      · rw [if_neg h4, if_neg (fun h => h4 h.2.2.2), proactive_outs]
    · rw [if_neg (show ¬(p.ethDst = p.vlan.mac ∨ unicastMac p.ethDst = false ∨ p.reason = Reason.invalidTtl) from h3), if_neg (fun h => h3 h.2.2.1)]
      rfl
  · rw [hb]
    rw [if_neg (by simp [h2]), if_neg (fun h => h2 h.2.1)]
    rfl
  · rw [if_neg (by simp [h1]), if_neg (fun h => h1 h.1)]
    rfl
  · rw [if_neg (by simp [h1]), if_neg (fun h => h1 h.1)]
    rfl

/-- What is sent about an IPv4 packet. -/
theorem rcv_ip4 (m : Mgr) (e : Env) (st : St) (now : Int) (mem : Members) (p : PktIn) {src dst proto : Nat} {icmp : Option Icmp4}
    {raw : List Nat} (hb : p.body = .ip4 src dst proto icmp raw) :
    (m.rcv e st now mem p).outs =
      if p.routed = true ∧ m.width = 32 ∧ p.seen ∧ p.complete = true then
        (if p.reason = .invalidTtl then (m.exceededHandler4 st mem p src raw).outs
          else (m.icmpHandler e st now mem p src dst proto icmp).outs) else [] := by
  unfold Mgr.rcv Mgr.concerns
  by_cases h1 : p.routed = true <;> by_cases h2 : m.width = 32
  · rw [hb]
    rw [if_pos (by simp [h1, h2]), afterwards_outs]
    unfold Mgr.controlPlane
    by_cases h3 : p.seen
    · rw [if_pos (show p.ethDst = p.vlan.mac ∨ unicastMac p.ethDst = false ∨ p.reason = Reason.invalidTtl from h3)]
      unfold Mgr.handle
      rw [hb]
      simp only
      rw [if_pos h2]
      unfold Mgr.handler4
      rw [hb]
      by_cases h4 : p.complete = true
      · rw [if_pos h4, if_pos ⟨h1, h2, h3, h4⟩]
        simp only
        by_cases h5 : p.reason = .invalidTtl
        · rw [if_pos h5, if_pos h5]
        · rw [if_neg h5, if_neg h5]
          exact orElse_outs _ _ (fun st => proactive_outs m e st now p)
      · rw [if_neg h4, if_neg (fun h => h4 h.2.2.2), proactive_outs]
    · rw [if_neg (show ¬(p.ethDst = p.vlan.mac ∨ unicastMac p.ethDst = false ∨ p.reason = Reason.invalidTtl) from h3), if_neg (fun h => h3 h.2.2.1)]
      rfl
  · rw [hb]
    rw [if_neg (by simp [h2]), if_neg (fun h => h2 h.2.1)]
    rfl
  · rw [if_neg (by simp [h1]), if_neg (fun h => h1 h.1)]
    rfl
  · rw [if_neg (by simp [h1]), if_neg (fun h => h1 h.1)]
    rfl

/-- What is sent about an IPv6 packet. -/
theorem rcv_ip6 (m : Mgr) (e : Env) (st : St) (now : Int) (mem : Members) (p : PktIn) {src dst nxt hop : Nat} {ext : Bool}
    {icmp : Option Icmp6} {raw : List Nat} (hb : p.body = .ip6 src dst nxt hop ext icmp raw) :
    (m.rcv e st now mem p).outs =
      if p.routed = true ∧ m.width = 128 ∧ p.seen ∧ p.complete = true then
        (if p.reason = .invalidTtl then (m.exceededHandler6 st mem p src ext raw).outs
          else (m.icmp6Handler e st now mem p src dst nxt hop ext icmp).outs) else [] := by
  unfold Mgr.rcv Mgr.concerns
  by_cases h1 : p.routed = true <;> by_cases h2 : m.width = 128
  · rw [hb]
    rw [if_pos (by simp [h1, h2]), afterwards_outs]
    unfold Mgr.controlPlane
    by_cases h3 : p.seen
    · rw [if_pos (show p.ethDst = p.vlan.mac ∨ unicastMac p.ethDst = false ∨ p.reason = Reason.invalidTtl from h3)]
      unfold Mgr.handle
      rw [hb]
      simp only
      rw [if_pos h2]
      unfold Mgr.handler6
      rw [hb]
      by_cases h4 : p.complete = true
      · rw [if_pos h4, if_pos ⟨h1, h2, h3, h4⟩]
        simp only
        by_cases h5 : p.reason = .invalidTtl
        · rw [if_pos h5, if_pos h5]
        · rw [if_neg h5, if_neg h5]
          exact orElse_outs _ _ (fun st => proactive_outs m e st now p)
      · rw [if_neg h4, if_neg (fun h => h4 h.2.2.2), proactive_outs]
    · rw [if_neg (show ¬(p.ethDst = p.vlan.mac ∨ unicastMac p.ethDst = false ∨ p.reason = Reason.invalidTtl) from h3), if_neg (fun h => h3 h.2.2.1)]
      rfl
  · rw [hb]
    rw [if_neg (by simp [h2]), if_neg (fun h => h2 h.2.1)]
    rfl
  · rw [if_neg (by simp [h1]), if_neg (fun h => h1 h.1)]
    rfl
  · rw [if_neg (by simp [h1]), if_neg (fun h => h1 h.1)]
    rfl

theorem rcv_other (m : Mgr) (e : Env) (st : St) (now : Int) (mem : Members) (p : PktIn) (hb : p.body = .other) :
    (m.rcv e st now mem p).outs = [] := by
  unfold Mgr.rcv Mgr.concerns
  rw [hb]
  rw [if_neg (by simp)]
  rfl

/-! ## To whom, and in whose name -/

/-- The address of a VIP speaks for the packet's VLAN, to whoever sent the packet. -/
def Reply (w : Nat) (p : PktIn) (mem : Members) (f : Sent) : Prop :=
  f.port = p.port ∧ f.vid = (if p.port ∈ mem.tagged then some p.vlan.vid else none) ∧
  f.ethSrc = p.vlan.mac ∧ f.ethDst = p.ethSrc ∧
  Owns p.vlan f.said.src ∧ f.said.dst = p.body.src ∧
  (∀ ip mac, f.said.announces = some (ip, mac) → Owns p.vlan ip ∧ mac = p.vlan.mac) ∧
  (∀ s d hop ns sla, f.said = .routerAdvert s d hop ns sla → ∀ n ∈ ns, ∃ x ∈ p.vlan.vips, n = x.net w)

theorem pktOut_reply {w : Nat} {p : PktIn} {mem : Members} {said : Said} (h1 : Owns p.vlan said.src) (h2 : said.dst = p.body.src)
    (h3 : ∀ ip mac, said.announces = some (ip, mac) → Owns p.vlan ip ∧ mac = p.vlan.mac)
    (h4 : ∀ s d hop ns sla, said = .routerAdvert s d hop ns sla → ∀ n ∈ ns, ∃ x ∈ p.vlan.vips, n = x.net w) :
    Reply w p mem (pktOut p.vlan mem p.port p.vlan.mac p.ethSrc said) := by
  refine ⟨rfl, ?_, rfl, rfl, h1, h2, h3, h4⟩
  show (if mem.tagged.contains p.port = true then _ else _) = _
  by_cases h : p.port ∈ mem.tagged
  · rw [if_pos h, if_pos (by simpa using h)]
  · rw [if_neg h, if_neg (by simpa using h)]

/-- At most one packet is sent, and it is a reply. -/
def OneReply (w : Nat) (p : PktIn) (mem : Members) (l : List Sent) : Prop := l = [] ∨ ∃ f, l = [f] ∧ Reply w p mem f

theorem vipResponse_one (m : Mgr) (e : Env) (st : St) (now : Int) (mem : Members) (p : PktIn) (target : Nat)
    (build : Nat → Nat → Nat → Nat → Said) (hb : build = arpReply ∨ build = ndAdvert) :
    OneReply m.width p mem (m.vipResponse e st now mem p p.body.src target build).outs := by
  unfold Mgr.vipResponse
  simp only
  by_cases h : (p.vlan.isVip m.width target && (p.vlan.subnetVip m.width p.body.src).isSome) = true
  · rw [if_pos h]
    have ho := isVip_owns (Bool.and_eq_true _ _ ▸ h).1
    refine Or.inr ⟨_, rfl, ?_⟩
    rcases hb with rfl | rfl
    · refine pktOut_reply ho rfl ?_ nofun
      intro ip mac hi
      cases hi
      exact ⟨ho, rfl⟩
    · refine pktOut_reply ho rfl ?_ nofun
      intro ip mac hi
      cases hi
      exact ⟨ho, rfl⟩
  · rw [if_neg h]
    exact Or.inl rfl

theorem unicastToVip_owns {m : Mgr} {p : PktIn} {src dst : Nat} (h : m.unicastToVip p src dst = true) : Owns p.vlan dst := by
  unfold Mgr.unicastToVip at h
  simp only [Bool.and_eq_true] at h
  exact isVip_owns h.2.1

/-- **Whatever the router is sent, it sends at most one packet back, by the port the packet came from and tagged as that port
is, from its own MAC address to the sender's, in the name of one of its own addresses in that VLAN, to the address that the
packet came from; it announces no address but its own, with no MAC address but its own, and advertises only its networks.** -/
theorem answers_for_itself (m : Mgr) (e : Env) (st : St) (now : Int) (mem : Members) (p : PktIn) :
    (m.rcv e st now mem p).outs = [] ∨ ∃ f, (m.rcv e st now mem p).outs = [f] ∧ Reply m.width p mem f := by
  show OneReply m.width p mem (m.rcv e st now mem p).outs
  cases hb : p.body with
  | other => exact Or.inl (rcv_other m e st now mem p hb)
  | arp op src dst =>
    have hs : src = p.body.src := by rw [hb]; rfl
    rw [rcv_arp m e st now mem p hb]
    split
    · unfold Mgr.arpHandler
      split
      · split
        · rw [hs]
          exact vipResponse_one m e st now mem p dst arpReply (Or.inl rfl)
        · exact Or.inl rfl
      · split
        · split <;> exact Or.inl rfl
        · exact Or.inl rfl
    · exact Or.inl rfl
  | ip4 src dst proto icmp raw =>
    have hs : src = p.body.src := by rw [hb]; rfl
    rw [rcv_ip4 m e st now mem p hb]
    split
    · split
      · unfold Mgr.exceededHandler4
        cases hx : p.vlan.subnetVip m.width src with
        | none => exact Or.inl rfl
        | some x => exact Or.inr ⟨_, rfl, pktOut_reply ⟨x, subnetVip_mem hx, rfl⟩ hs nofun nofun⟩
      · unfold Mgr.icmpHandler
        split
        · exact Or.inl rfl
        · split
          · rename_i hu
            cases icmp with
            | none => exact Or.inl rfl
            | some c =>
              cases c with
              | echo ident seq data => exact Or.inr ⟨_, rfl, pktOut_reply (unicastToVip_owns hu) hs nofun nofun⟩
              | other t => exact Or.inl rfl
          · exact Or.inl rfl
    · exact Or.inl rfl
  | ip6 src dst nxt hop ext icmp raw =>
    have hs : src = p.body.src := by rw [hb]; rfl
    rw [rcv_ip6 m e st now mem p hb]
    split
    · split
      · unfold Mgr.exceededHandler6
        split
        · exact Or.inl rfl
        · cases hx : p.vlan.subnetVip m.width src with
          | none => exact Or.inl rfl
          | some x => exact Or.inr ⟨_, rfl, pktOut_reply ⟨x, subnetVip_mem hx, rfl⟩ hs nofun nofun⟩
      · unfold Mgr.icmp6Handler
        split
        · exact Or.inl rfl
        split
        · exact Or.inl rfl
        split
        · exact Or.inl rfl
        cases icmp with
        | none => exact Or.inl rfl
        | some c =>
          simp only
          split
          · exact Or.inl rfl
          cases c with
          | solicit target =>
            rw [hs]
            exact vipResponse_one m e st now mem p target ndAdvert (Or.inr rfl)
          | advert target => exact Or.inl rfl
          | other t => exact Or.inl rfl
          | echo ident seq data =>
            unfold Mgr.icmp6Table Mgr.echoHandler6
            simp only
            split
            · rename_i hu
              exact Or.inr ⟨_, rfl, pktOut_reply (unicastToVip_owns hu) hs nofun nofun⟩
            · exact Or.inl rfl
          | routerSolicit =>
            unfold Mgr.icmp6Table Mgr.routerSolicitHandler
            simp only
            cases hf : (m.linkVips p.vlan).find? (fun x => (x.net m.width).contains m.width src) with
            | none => exact Or.inl rfl
            | some x =>
              have hx : x ∈ p.vlan.vips := (List.mem_filter.1 (List.mem_of_find?_eq_some hf)).1
              refine Or.inr ⟨_, rfl, pktOut_reply ⟨x, hx, rfl⟩ hs ?_ ?_⟩
              · intro ip mac hi
                cases hi
                exact ⟨⟨x, hx, rfl⟩, rfl⟩
              · intro s d hop ns sla hi n hn
                cases hi
                obtain ⟨y, hy, rfl⟩ := List.mem_map.1 hn
                exact ⟨y, (List.mem_filter.1 hy).1, rfl⟩
    · exact Or.inl rfl

/-! ## What it answers -/

/-- What provokes an answer: a request, a solicitation or a ping, or any packet that ran out of hops. -/
inductive Asks : PktIn → Prop where
  | arp {p : PktIn} {src dst : Nat} : p.body = .arp 1 src dst → Asks p
  | ping {p : PktIn} {src dst ident seq : Nat} {data raw : List Nat} :
      p.body = .ip4 src dst 1 (some (.echo ident seq data)) raw → Asks p
  | solicit {p : PktIn} {src dst target : Nat} {raw : List Nat} :
      p.body = .ip6 src dst 58 255 false (some (.solicit target)) raw → Asks p
  | routerSolicit {p : PktIn} {src dst : Nat} {raw : List Nat} :
      p.body = .ip6 src dst 58 255 false (some .routerSolicit) raw → Asks p
  | ping6 {p : PktIn} {src dst hop ident seq : Nat} {data raw : List Nat} :
      p.body = .ip6 src dst 58 hop false (some (.echo ident seq data)) raw → Asks p
  | expired {p : PktIn} : p.reason = .invalidTtl → Asks p

/-- **The router says nothing unasked**: it answers requests, solicitations and pings, and reports expired packets, and that
is all. -/
theorem silent_unless_asked (m : Mgr) (e : Env) (st : St) (now : Int) (mem : Members) (p : PktIn) (h : ¬Asks p) :
    (m.rcv e st now mem p).outs = [] := by
  have ht : p.reason ≠ .invalidTtl := fun h' => h (.expired h')
  cases hb : p.body with
  | other => exact rcv_other m e st now mem p hb
  | arp op src dst =>
    rw [rcv_arp m e st now mem p hb]
    split
    · unfold Mgr.arpHandler
      split
      · rename_i h1
        exact absurd (.arp (by rw [hb, h1])) h
      · split
        · split <;> rfl
        · rfl
    · rfl
  | ip4 src dst proto icmp raw =>
    rw [rcv_ip4 m e st now mem p hb, if_neg ht]
    split
    · unfold Mgr.icmpHandler
      split
      · rfl
      · rename_i h1
        split
        · cases icmp with
          | none => rfl
          | some c =>
            cases c with
            | other t => rfl
            | echo ident seq data => exact absurd (.ping (by rw [hb, Decidable.not_not.1 h1])) h
        · rfl
    · rfl
  | ip6 src dst nxt hop ext icmp raw =>
    rw [rcv_ip6 m e st now mem p hb, if_neg ht]
    split
    · unfold Mgr.icmp6Handler
      split
      · rfl
      rename_i h1
      have h1' := Decidable.not_not.1 h1
      split
      · rfl
      rename_i h2
      have h2' : ext = false := by simpa using h2
      split
      · rfl
      cases icmp with
      | none => rfl
      | some c =>
        simp only
        split
        · rfl
        rename_i h3
        cases c with
        | advert target => rfl
        | other t => rfl
        | echo ident seq data => exact absurd (.ping6 (by rw [hb, h1', h2'])) h
        | solicit target =>
          have : hop = 255 := by
            by_contra hc
            exact h3 ⟨hc, rfl⟩
          exact absurd (.solicit (by rw [hb, h1', h2', this])) h
        | routerSolicit =>
          have : hop = 255 := by
            by_contra hc
            exact h3 ⟨hc, rfl⟩
          exact absurd (.routerSolicit (by rw [hb, h1', h2', this])) h
    · rfl

/-- What a router's packet looks like to a router that receives it; the rest of the packet (`raw`) may be anything. -/
inductive Heard : Said → Body → Prop where
  | arpReply (sha spa tha tpa : Nat) : Heard (.arpReply sha spa tha tpa) (.arp 2 spa tpa)
  | echo4 (s d i q : Nat) (data raw : List Nat) : Heard (.echo4 s d i q data) (.ip4 s d 1 (some (.other 0)) raw)
  | exceeded4 (s d : Nat) (quote raw : List Nat) : Heard (.exceeded4 s d quote) (.ip4 s d 1 (some (.other 11)) raw)
  | ndAdvert (s d h t tla : Nat) (raw : List Nat) : Heard (.ndAdvert s d h t tla) (.ip6 s d 58 h false (some (.advert t)) raw)
  | echo6 (s d h i q : Nat) (data raw : List Nat) : Heard (.echo6 s d h i q data) (.ip6 s d 58 h false (some (.other 129)) raw)
  | exceeded6 (s d : Nat) (quote raw : List Nat) : Heard (.exceeded6 s d quote) (.ip6 s d 58 255 false (some (.other 3)) raw)
  | routerAdvert (s d h : Nat) (ns : List Net) (sla : Nat) (raw : List Nat) :
      Heard (.routerAdvert s d h ns sla) (.ip6 s d 58 h false (some (.other 134)) raw)

/-- **Answers are not answered**, however the routers are configured and wherever the answer turns up, unless it runs out of
hops: two routers cannot keep each other busy. -/
theorem answers_unanswered_partial (m : Mgr) (e : Env) (st : St) (now : Int) (mem : Members) (said : Said) (p : PktIn)
    (h : Heard said p.body) (ht : p.reason ≠ .invalidTtl) : (m.rcv e st now mem p).outs = [] := by
  refine silent_unless_asked m e st now mem p ?_
  intro ha
  cases ha with
  | expired h' => exact ht h'
  | arp h' => rw [h'] at h; cases h
  | ping h' => rw [h'] at h; cases h
  | ping6 h' => rw [h'] at h; cases h
  | solicit h' => rw [h'] at h; cases h
  | routerSolicit h' => rw [h'] at h; cases h

theorem seen_mac {p : PktIn} (h : p.ethDst = p.vlan.mac) : p.seen := Or.inl h

theorem vipResponse_outs (m : Mgr) (e : Env) (st : St) (now : Int) (mem : Members) (p : PktIn) (src target : Nat)
    (build : Nat → Nat → Nat → Nat → Said) (hok : AddrsOk m.width p.vlan) (hap : Apart m.width p.vlan) (hs : src < 2 ^ m.width) :
    (Owns p.vlan target ∧ OnLink m.width p.vlan src → (m.vipResponse e st now mem p src target build).outs =
      [pktOut p.vlan mem p.port p.vlan.mac p.ethSrc (build p.vlan.mac p.ethSrc target src)]) ∧
    (¬(Owns p.vlan target ∧ OnLink m.width p.vlan src) → (m.vipResponse e st now mem p src target build).outs = []) := by
  have h : (p.vlan.isVip m.width target && (p.vlan.subnetVip m.width src).isSome) = true ↔
      Owns p.vlan target ∧ OnLink m.width p.vlan src := by
    rw [Bool.and_eq_true, isVip_iff hok hap, subnetVip_onLink hok hap hs]
  unfold Mgr.vipResponse
  constructor
  · intro ha
    exact if_pos (h.2 ha)
  · intro ha
    exact if_neg (fun h' => ha (h.1 h'))

/-- **A host's request for the MAC address of one of the router's addresses is answered exactly once, and requests for any
other address never are**: the request may be broadcast or sent to the router. -/
theorem arp_answered_partial (m : Mgr) (e : Env) (st : St) (now : Int) (mem : Members) (p : PktIn) {src dst : Nat}
    (hb : p.body = .arp 1 src dst) (hm : m.width = 32) (hok : AddrsOk 32 p.vlan) (hap : Apart 32 p.vlan) (hs : src < 2 ^ 32)
    (hr : p.routed = true) (hd : p.ethDst = 0xffffffffffff ∨ p.ethDst = p.vlan.mac) (hg : p.got = p.total) (ht : p.total ≤ 64) :
    (Owns p.vlan dst ∧ OnLink 32 p.vlan src → (m.rcv e st now mem p).outs =
      [⟨p.port, if p.port ∈ mem.tagged then some p.vlan.vid else none, p.vlan.mac, p.ethSrc,
        .arpReply p.vlan.mac dst p.ethSrc src⟩]) ∧
    (¬(Owns p.vlan dst ∧ OnLink 32 p.vlan src) → (m.rcv e st now mem p).outs = []) := by
  have hseen : p.seen := by
    rcases hd with h | h
    · exact Or.inr (Or.inl (by rw [h]; decide))
    · exact Or.inl h
  have hc : p.complete = true := by
    unfold PktIn.complete
    rw [hb, hg]
    simp only [beq_iff_eq]
    omega
  rw [rcv_arp m e st now mem p hb, if_pos ⟨hr, hm, hseen, hc⟩]
  have ha : m.arpHandler e st now mem p 1 src dst = m.vipResponse e st now mem p src dst arpReply := by
    unfold Mgr.arpHandler
    rw [if_pos rfl]
    exact if_pos hd
  rw [ha]
  rw [← hm] at hok hap hs
  obtain ⟨h1, h2⟩ := vipResponse_outs m e st now mem p src dst arpReply hok hap hs
  rw [hm] at h1 h2
  refine ⟨?_, h2⟩
  intro h
  rw [h1 h]
  unfold pktOut arpReply
  simp

/-- **Neighbour solicitations likewise.** -/
theorem nd_answered_partial (m : Mgr) (e : Env) (st : St) (now : Int) (mem : Members) (p : PktIn) {src dst target : Nat} {raw : List Nat}
    (hb : p.body = .ip6 src dst 58 255 false (some (.solicit target)) raw) (hm : m.width = 128) (hok : AddrsOk 128 p.vlan)
    (hap : Apart 128 p.vlan) (hs : src < 2 ^ 128) (hr : p.routed = true)
    (hd : p.ethDst = p.vlan.mac ∨ p.ethDst / 2 ^ 40 % 2 = 1) (hg : p.got = p.total) (hre : p.reason ≠ .invalidTtl) :
    (Owns p.vlan target ∧ OnLink 128 p.vlan src → (m.rcv e st now mem p).outs =
      [⟨p.port, if p.port ∈ mem.tagged then some p.vlan.vid else none, p.vlan.mac, p.ethSrc,
        .ndAdvert target src 255 target p.vlan.mac⟩]) ∧
    (¬(Owns p.vlan target ∧ OnLink 128 p.vlan src) → (m.rcv e st now mem p).outs = []) := by
  have hseen : p.seen := by
    rcases hd with h | h
    · exact Or.inl h
    · exact Or.inr (Or.inl (by unfold unicastMac; rw [h]; simp))
  have hc : p.complete = true := by
    unfold PktIn.complete
    rw [hb, hg]
    simp
  rw [rcv_ip6 m e st now mem p hb, if_pos ⟨hr, hm, hseen, hc⟩, if_neg hre]
  rw [← hm] at hok hap hs
  have hlink := subnetVip_onLink (v := p.vlan) hok hap hs
  obtain ⟨h1, h2⟩ := vipResponse_outs m e st now mem p src target ndAdvert hok hap hs
  rw [hm] at h1 h2 hlink
  by_cases ho : (p.vlan.subnetVip 128 src).isNone = true
  · have hn : ¬OnLink 128 p.vlan src := by
      rw [← hlink]
      rw [Option.isNone_iff_eq_none] at ho
      rw [ho]
      decide
    refine ⟨fun h => absurd h.2 hn, fun _ => ?_⟩
    unfold Mgr.icmp6Handler
    rw [if_neg (by decide), if_neg (by decide), hm, if_pos ho]
    rfl
  · have ha : m.icmp6Handler e st now mem p src dst 58 255 false (some (.solicit target)) =
        m.vipResponse e st now mem p src target ndAdvert := by
      unfold Mgr.icmp6Handler
      rw [if_neg (by decide), if_neg (by decide), hm, if_neg ho]
      rfl
    rw [ha]
    refine ⟨?_, h2⟩
    intro h
    rw [h1 h]
    unfold pktOut ndAdvert
    simp

theorem unicastToVip_iff {m : Mgr} {p : PktIn} {src dst : Nat} (hok : AddrsOk m.width p.vlan) (hap : Apart m.width p.vlan)
    (hs : src < 2 ^ m.width) (hd : p.ethDst = p.vlan.mac) :
    m.unicastToVip p src dst = true ↔ Owns p.vlan dst ∧ OnLink m.width p.vlan src := by
  unfold Mgr.unicastToVip
  rw [Bool.and_eq_true, Bool.and_eq_true, isVip_iff hok hap, subnetVip_onLink hok hap hs]
  simp [hd]

/-- **A ping of one of the router's addresses by a host of a connected network is answered exactly once, with its data, and
no other is**, if the whole packet is no longer than 174 bytes with its VLAN tag. -/
theorem ping_answered_partial (m : Mgr) (e : Env) (st : St) (now : Int) (mem : Members) (p : PktIn) {src dst ident seq : Nat}
    {data raw : List Nat} (hb : p.body = .ip4 src dst 1 (some (.echo ident seq data)) raw) (hm : m.width = 32)
    (hok : AddrsOk 32 p.vlan) (hap : Apart 32 p.vlan) (hs : src < 2 ^ 32) (hr : p.routed = true) (hd : p.ethDst = p.vlan.mac)
    (hg : p.got = p.total) (ht : p.total ≤ 174) (hre : p.reason ≠ .invalidTtl) :
    (Owns p.vlan dst ∧ OnLink 32 p.vlan src → (m.rcv e st now mem p).outs =
      [⟨p.port, if p.port ∈ mem.tagged then some p.vlan.vid else none, p.vlan.mac, p.ethSrc, .echo4 dst src ident seq data⟩]) ∧
    (¬(Owns p.vlan dst ∧ OnLink 32 p.vlan src) → (m.rcv e st now mem p).outs = []) := by
  have hc : p.complete = true := by
    unfold PktIn.complete
    rw [hb, hg]
    simp only [beq_iff_eq]
    omega
  rw [rcv_ip4 m e st now mem p hb, if_pos ⟨hr, hm, Or.inl hd, hc⟩, if_neg hre]
  rw [← hm] at hok hap hs
  have hu := unicastToVip_iff (dst := dst) hok hap hs hd
  rw [hm] at hu
  unfold Mgr.icmpHandler
  rw [if_neg (by decide)]
  constructor
  · intro h
    rw [if_pos (hu.2 h)]
    simp [pktOut]
  · intro h
    rw [if_neg (fun h' => h (hu.1 h'))]
    rfl

/-- **Pings of IPv6 likewise, with up to 88 bytes of data**; with more the answer carries only the first 88
(`ping6_cut_defect`). -/
theorem ping6_answered_partial (m : Mgr) (e : Env) (st : St) (now : Int) (mem : Members) (p : PktIn) {src dst hop ident seq : Nat}
    {data raw : List Nat} (hb : p.body = .ip6 src dst 58 hop false (some (.echo ident seq data)) raw) (hm : m.width = 128)
    (hok : AddrsOk 128 p.vlan) (hap : Apart 128 p.vlan) (hs : src < 2 ^ 128) (hr : p.routed = true) (hd : p.ethDst = p.vlan.mac)
    (hg : p.got = p.total) (hl : data.length ≤ 88) (hre : p.reason ≠ .invalidTtl) :
    (Owns p.vlan dst ∧ OnLink 128 p.vlan src → (m.rcv e st now mem p).outs =
      [⟨p.port, if p.port ∈ mem.tagged then some p.vlan.vid else none, p.vlan.mac, p.ethSrc, .echo6 dst src hop ident seq data⟩]) ∧
    (¬(Owns p.vlan dst ∧ OnLink 128 p.vlan src) → (m.rcv e st now mem p).outs = []) := by
  have hc : p.complete = true := by
    unfold PktIn.complete
    rw [hb, hg]
    simp
  rw [rcv_ip6 m e st now mem p hb, if_pos ⟨hr, hm, Or.inl hd, hc⟩, if_neg hre]
  rw [← hm] at hok hap hs
  have hu := unicastToVip_iff (dst := dst) hok hap hs hd
  have hlink := subnetVip_onLink (v := p.vlan) hok hap hs
  rw [hm] at hu hlink
  unfold Mgr.icmp6Handler
  rw [if_neg (by decide), if_neg (by decide), hm]
  by_cases ho : (p.vlan.subnetVip 128 src).isNone = true
  · have hn : ¬OnLink 128 p.vlan src := by
      rw [← hlink]
      rw [Option.isNone_iff_eq_none] at ho
      rw [ho]
      decide
    refine ⟨fun h => absurd h.2 hn, fun _ => ?_⟩
    rw [if_pos ho]
    rfl
  · rw [if_neg ho]
    simp only
    rw [if_neg (by simp [Icmp6.isEcho])]
    unfold Mgr.icmp6Table Mgr.echoHandler6
    simp only
    constructor
    · intro h
      rw [if_pos (hu.2 h), List.take_of_length_le hl]
      simp [pktOut]
    · intro h
      rw [if_neg (fun h' => h (hu.1 h'))]
      rfl

/-- **A packet of a host of a connected network that runs out of hops is reported to the host exactly once**, in the name of
the router's address in the host's network, with the first 28 bytes of the packet; if the sender is in none of the networks,
it is not. -/
theorem expired_reported_partial (m : Mgr) (e : Env) (st : St) (now : Int) (mem : Members) (p : PktIn) {src dst proto : Nat}
    {icmp : Option Icmp4} {raw : List Nat} (hb : p.body = .ip4 src dst proto icmp raw) (hm : m.width = 32)
    (hok : AddrsOk 32 p.vlan) (hap : Apart 32 p.vlan) (hs : src < 2 ^ 32) (hr : p.routed = true) (hg : p.got = p.total)
    (ht : p.total ≤ 174) (hre : p.reason = .invalidTtl) :
    (∀ x ∈ p.vlan.vips, InNet 32 x src → HostBits 32 x src → (m.rcv e st now mem p).outs =
      [⟨p.port, if p.port ∈ mem.tagged then some p.vlan.vid else none, p.vlan.mac, p.ethSrc, .exceeded4 x.ip src (raw.take 28)⟩]) ∧
    (¬OnLink 32 p.vlan src → (m.rcv e st now mem p).outs = []) := by
  have hc : p.complete = true := by
    unfold PktIn.complete
    rw [hb, hg]
    simp only [beq_iff_eq]
    omega
  rw [rcv_ip4 m e st now mem p hb, if_pos ⟨hr, hm, Or.inr (Or.inr hre), hc⟩, if_pos hre]
  unfold Mgr.exceededHandler4
  rw [hm]
  constructor
  · intro x hx h1 h2
    rw [(subnetVip_iff hok hap hs).2 ⟨hx, h1, h2⟩]
    simp [pktOut]
  · intro h
    rw [← subnetVip_onLink hok hap hs] at h
    rw [Option.not_isSome_iff_eq_none.1 h]
    rfl

/-- **Likewise for IPv6**: 4 bytes of padding and the first 72 bytes of the packet. -/
theorem expired6_reported_partial (m : Mgr) (e : Env) (st : St) (now : Int) (mem : Members) (p : PktIn) {src dst nxt hop : Nat}
    {icmp : Option Icmp6} {raw : List Nat} (hb : p.body = .ip6 src dst nxt hop false icmp raw) (hm : m.width = 128)
    (hok : AddrsOk 128 p.vlan) (hap : Apart 128 p.vlan) (hs : src < 2 ^ 128) (hr : p.routed = true) (hg : p.got = p.total)
    (hre : p.reason = .invalidTtl) :
    (∀ x ∈ p.vlan.vips, InNet 128 x src → HostBits 128 x src → (m.rcv e st now mem p).outs =
      [⟨p.port, if p.port ∈ mem.tagged then some p.vlan.vid else none, p.vlan.mac, p.ethSrc,
        .exceeded6 x.ip src ([0, 0, 0, 0] ++ raw.take 72)⟩]) ∧
    (¬OnLink 128 p.vlan src → (m.rcv e st now mem p).outs = []) := by
  have hc : p.complete = true := by
    unfold PktIn.complete
    rw [hb, hg]
    simp
  rw [rcv_ip6 m e st now mem p hb, if_pos ⟨hr, hm, Or.inr (Or.inr hre), hc⟩, if_pos hre]
  unfold Mgr.exceededHandler6
  rw [hm, if_neg (by decide)]
  constructor
  · intro x hx h1 h2
    rw [(subnetVip_iff hok hap hs).2 ⟨hx, h1, h2⟩, List.take_of_length_le (l := raw.take 72) (by rw [List.length_take]; omega)]
    simp [pktOut]
  · intro h
    rw [← subnetVip_onLink hok hap hs] at h
    rw [Option.not_isSome_iff_eq_none.1 h]
    rfl

/-- **A router solicitation from a link-local network of the router is answered exactly once**, in the name of the router's
address there, with all networks of the VLAN that are not link-local. -/
theorem solicitation_answered_partial (m : Mgr) (e : Env) (st : St) (now : Int) (mem : Members) (p : PktIn) {src dst : Nat}
    {raw : List Nat} (hb : p.body = .ip6 src dst 58 255 false (some .routerSolicit) raw) (hm : m.width = 128)
    (hok : AddrsOk 128 p.vlan) (hap : Apart 128 p.vlan) (hs : src < 2 ^ 128) (hr : p.routed = true)
    (hd : p.ethDst = p.vlan.mac ∨ p.ethDst / 2 ^ 40 % 2 = 1) (hg : p.got = p.total) (hre : p.reason ≠ .invalidTtl)
    {x : Vip} (hx : x ∈ p.vlan.vips) (hl : m.linkLocal x.ip = true) (hin : InNet 128 x src) (hh : HostBits 128 x src) :
    ∃ ns, (∀ n, n ∈ ns ↔ ∃ y ∈ p.vlan.vips, m.linkLocal y.ip = false ∧ n = y.net 128) ∧
      (m.rcv e st now mem p).outs =
        [⟨p.port, if p.port ∈ mem.tagged then some p.vlan.vid else none, p.vlan.mac, p.ethSrc,
          .routerAdvert x.ip src 255 ns p.vlan.mac⟩] := by
  have hseen : p.seen := by
    rcases hd with h | h
    · exact Or.inl h
    · exact Or.inr (Or.inl (by unfold unicastMac; rw [h]; simp))
  have hc : p.complete = true := by
    unfold PktIn.complete
    rw [hb, hg]
    simp
  refine ⟨(m.otherVips p.vlan).map (·.net 128), ?_, ?_⟩
  · intro n
    unfold Mgr.otherVips
    simp only [List.mem_map, List.mem_filter, Bool.not_eq_true']
    constructor
    · rintro ⟨y, ⟨h1, h2⟩, rfl⟩
      exact ⟨y, h1, h2, rfl⟩
    · rintro ⟨y, h1, h2, rfl⟩
      exact ⟨y, ⟨h1, h2⟩, rfl⟩
  · rw [rcv_ip6 m e st now mem p hb, if_pos ⟨hr, hm, hseen, hc⟩, if_neg hre]
    unfold Mgr.icmp6Handler
    rw [if_neg (by decide), if_neg (by decide), hm, (subnetVip_iff hok hap hs).2 ⟨hx, hin, hh⟩, if_neg (by simp)]
    simp only
    rw [if_neg (by simp)]
    unfold Mgr.icmp6Table Mgr.routerSolicitHandler
    simp only
    rw [hm]
    have hmem : x ∈ m.linkVips p.vlan := List.mem_filter.2 ⟨hx, hl⟩
    have hfs : ((m.linkVips p.vlan).find? (fun x => (x.net 128).contains 128 src)).isSome = true := by
      rw [List.find?_isSome]
      exact ⟨x, hmem, (contains_inNet (hok x hx).1 (hok x hx).2 hs).2 hin⟩
    obtain ⟨y, hy⟩ := Option.isSome_iff_exists.1 hfs
    have hy1 := List.mem_of_find?_eq_some hy
    have hyv : y ∈ p.vlan.vips := (List.mem_filter.1 hy1).1
    have hy2 : (y.net 128).contains 128 src = true := by simpa using List.find?_some hy
    have hxy : x = y := hap x hx y hyv src hs hin ((contains_inNet (hok y hyv).1 (hok y hyv).2 hs).1 hy2)
    subst hxy
    rw [hy]
    simp [pktOut, routerAdvert]

/-- **What the router answers does not depend on what went before**: not on the state of routes and neighbours, nor on the
time. -/
theorem answers_memoryless (m : Mgr) (e e' : Env) (st st' : St) (now now' : Int) (mem : Members) (p : PktIn) :
    (m.rcv e st now mem p).outs = (m.rcv e' st' now' mem p).outs := by
  cases hb : p.body with
  | other => rw [rcv_other _ _ _ _ _ _ hb, rcv_other _ _ _ _ _ _ hb]
  | arp op src dst =>
    rw [rcv_arp _ _ _ _ _ _ hb, rcv_arp _ _ _ _ _ _ hb]
    congr 1
    unfold Mgr.arpHandler
    split
    · split <;> rfl
    · split
      · split <;> rfl
      · rfl
  | ip4 src dst proto icmp raw =>
    rw [rcv_ip4 _ _ _ _ _ _ hb, rcv_ip4 _ _ _ _ _ _ hb]
    congr 1
    congr 1
    · unfold Mgr.exceededHandler4
      split <;> rfl
    · unfold Mgr.icmpHandler
      split
      · rfl
      · split
        · split <;> rfl
        · rfl
  | ip6 src dst nxt hop ext icmp raw =>
    rw [rcv_ip6 _ _ _ _ _ _ hb, rcv_ip6 _ _ _ _ _ _ hb]
    congr 1
    congr 1
    · unfold Mgr.exceededHandler6
      split
      · rfl
      · split <;> rfl
    · unfold Mgr.icmp6Handler
      split
      · rfl
      split
      · rfl
      split
      · rfl
      cases icmp with
      | none => rfl
      | some c =>
        simp only
        split
        · rfl
        cases c with
        | solicit t => rfl
        | advert t => rfl
        | other t => rfl
        | routerSolicit =>
          unfold Mgr.icmp6Table Mgr.routerSolicitHandler
          simp only
          split <;> rfl
        | echo i q d =>
          unfold Mgr.icmp6Table Mgr.echoHandler6
          simp only
          split <;> rfl

/-! ## Advertisements -/

theorem count_ports (ports : List Nat) (vid : Option Nat) (a b : Nat) (said : Said) (q : Nat) :
    ((ports.map (fun p => Sent.mk p vid a b said)).filter (fun f => f.port == q)).length = ports.count q := by
  induction ports with
  | nil => rfl
  | cons x l ih =>
    rw [List.map_cons, List.filter_cons, List.count_cons]
    by_cases h : x = q
    · rw [if_pos (by simpa using h)]
      simp [ih, h]
    · rw [if_neg (by simpa using h)]
      simp [ih, h]

theorem up_count {mem : Members} {ports : List Nat} {q : Nat} (hn : ports.Nodup) :
    (mem.up ports).count q = if q ∈ ports ∧ mem.running q = true ∧ q ∉ mem.excluded then 1 else 0 := by
  have hd : (mem.up ports).Nodup := hn.filter _
  have hm : q ∈ mem.up ports ↔ q ∈ ports ∧ mem.running q = true ∧ q ∉ mem.excluded := by
    unfold Members.up
    simp [List.mem_filter]
  by_cases h : q ∈ mem.up ports
  · rw [if_pos (hm.1 h)]
    rw [List.Nodup.count hd, if_pos h]
  · rw [if_neg (fun h' => h (hm.2 h'))]
    exact List.count_eq_zero_of_not_mem h

/-- The copies of packets sent to a port. -/
def copiesTo (q : Nat) (l : List Sent) : Nat := (l.filter (fun f => f.port == q)).length

theorem flood_once {v : Vlan} {mem : Members} (ht : mem.tagged.Nodup) (hu : mem.untagged.Nodup)
    (hd : ∀ q ∈ mem.tagged, q ∉ mem.untagged) (a b : Nat) (said : Said) (q : Nat) :
    copiesTo q (floodPkt v mem a b said) =
      if (q ∈ mem.tagged ∨ q ∈ mem.untagged) ∧ mem.running q = true ∧ q ∉ mem.excluded then 1 else 0 := by
  unfold copiesTo floodPkt
  rw [List.filter_append, List.length_append, count_ports, count_ports, up_count ht, up_count hu]
  by_cases h1 : q ∈ mem.tagged
  · have h2 := hd q h1
    simp [h1, h2]
  · by_cases h2 : q ∈ mem.untagged
    · simp [h1, h2]
    · simp [h1, h2]

/-- **Each link-local address of the router is advertised once to every running port of the VLAN, and to no other port.** -/
theorem advertised_once (m : Mgr) (v : Vlan) (mem : Members) (ht : mem.tagged.Nodup) (hu : mem.untagged.Nodup)
    (hd : ∀ q ∈ mem.tagged, q ∉ mem.untagged) (q : Nat) :
    copiesTo q (m.advertise v mem) =
      if (q ∈ mem.tagged ∨ q ∈ mem.untagged) ∧ mem.running q = true ∧ q ∉ mem.excluded
      then (v.vips.filter (fun x => m.linkLocal x.ip)).length else 0 := by
  unfold Mgr.advertise Mgr.linkVips
  generalize v.vips.filter (fun x => m.linkLocal x.ip) = l
  induction l with
  | nil => simp [copiesTo]
  | cons x l ih =>
    rw [List.flatMap_cons]
    have happ : ∀ a b : List Sent, copiesTo q (a ++ b) = copiesTo q a + copiesTo q b := by
      intro a b
      unfold copiesTo
      rw [List.filter_append, List.length_append]
    rw [happ, ih, flood_once ht hu hd]
    split
    · rw [List.length_cons]; omega
    · rfl

/-- **Advertisements are tagged as the port is, come from the router's MAC address and a link-local address of its, go to all
nodes, and announce exactly the networks of the VLAN that are not link-local.** -/
theorem advertised_right (m : Mgr) (v : Vlan) (mem : Members) (hd : ∀ q ∈ mem.tagged, q ∉ mem.untagged) (f : Sent)
    (hf : f ∈ m.advertise v mem) :
    f.vid = (if f.port ∈ mem.tagged then some v.vid else none) ∧ f.ethSrc = v.mac ∧ f.ethDst = 0x333300000001 ∧
    ∃ x ∈ v.vips, m.linkLocal x.ip = true ∧ ∃ ns, (∀ n, n ∈ ns ↔ ∃ y ∈ v.vips, m.linkLocal y.ip = false ∧ n = y.net m.width) ∧
      f.said = .routerAdvert x.ip 0xff020000000000000000000000000001 255 ns v.mac := by
  unfold Mgr.advertise at hf
  obtain ⟨x, hx, hf⟩ := List.mem_flatMap.1 hf
  have hx' : x ∈ v.vips ∧ m.linkLocal x.ip = true := by simpa [Mgr.linkVips, List.mem_filter] using hx
  have hns : ∀ n, n ∈ (m.otherVips v).map (·.net m.width) ↔ ∃ y ∈ v.vips, m.linkLocal y.ip = false ∧ n = y.net m.width := by
    intro n
    unfold Mgr.otherVips
    simp only [List.mem_map, List.mem_filter, Bool.not_eq_true']
    constructor
    · rintro ⟨y, ⟨h1, h2⟩, rfl⟩
      exact ⟨y, h1, h2, rfl⟩
    · rintro ⟨y, h1, h2, rfl⟩
      exact ⟨y, ⟨h1, h2⟩, rfl⟩
  unfold floodPkt at hf
  rcases List.mem_append.1 hf with h | h
  · obtain ⟨q, hq, rfl⟩ := List.mem_map.1 h
    have hq' : q ∈ mem.tagged := (List.mem_filter.1 hq).1
    exact ⟨(if_pos hq').symm, rfl, rfl, x, hx'.1, hx'.2, _, hns, rfl⟩
  · obtain ⟨q, hq, rfl⟩ := List.mem_map.1 h
    have hq' : q ∉ mem.tagged := fun h => hd q h (List.mem_filter.1 hq).1
    exact ⟨(if_neg hq').symm, rfl, rfl, x, hx'.1, hx'.2, _, hns, rfl⟩

/-! ## What the router learns from being asked -/

theorem eth_setHop (s : VState) (gw : Nat) (n : NextHop) : (s.setHop gw n).eth gw = n.eth := by
  unfold VState.eth VState.setHop
  simp

theorem learnHost_eth (m : Mgr) (e : Env) (st : St) (now : Int) (v : Vlan) (port mac ip : Nat) :
    ((m.learnHost e st now v port mac ip).1 v.vid).eth ip = some mac := by
  unfold Mgr.learnHost Mgr.updateNexthop
  simp only
  rw [upd_self, eth_setHop]
  rfl

/-- **A host that asks for the router's MAC address is known to the router afterwards**, whatever was known of it before: packets
for it go to the MAC address the request came from. -/
theorem asker_known (m : Mgr) (e : Env) (st : St) (now : Int) (mem : Members) (p : PktIn) {src dst : Nat}
    (hb : p.body = .arp 1 src dst) (hm : m.width = 32) (hok : AddrsOk 32 p.vlan) (hap : Apart 32 p.vlan) (hs : src < 2 ^ 32)
    (hr : p.routed = true) (hd : p.ethDst = 0xffffffffffff ∨ p.ethDst = p.vlan.mac) (hg : p.got = p.total) (ht : p.total ≤ 64)
    (hl : m.linkLocal src = false) (ho : Owns p.vlan dst) (hon : OnLink 32 p.vlan src) :
    (((m.rcv e st now mem p).st) p.vlan.vid).eth src = some p.ethSrc := by
  have hseen : p.ethDst = p.vlan.mac ∨ unicastMac p.ethDst = false ∨ p.reason = Reason.invalidTtl := by
    rcases hd with h | h
    · exact Or.inr (Or.inl (by rw [h]; decide))
    · exact Or.inl h
  have hc : p.complete = true := by
    unfold PktIn.complete
    rw [hb, hg]
    simp only [beq_iff_eq]
    omega
  have hcond : (p.vlan.isVip 32 dst && (p.vlan.subnetVip 32 src).isSome) = true := by
    rw [Bool.and_eq_true, isVip_iff hok hap, subnetVip_onLink hok hap hs]
    exact ⟨ho, hon⟩
  have ha : m.controlPlane e st now mem p = m.vipResponse e st now mem p src dst arpReply := by
    unfold Mgr.controlPlane
    rw [if_pos hseen]
    unfold Mgr.handle
    rw [hb]
    simp only
    rw [if_pos hm]
    unfold Mgr.handler4
    rw [if_pos hc, hb]
    simp only
    unfold Mgr.arpHandler
    rw [if_pos rfl]
    exact if_pos hd
  have hsaid : (m.vipResponse e st now mem p src dst arpReply).said = true := by
    unfold Res.said Mgr.vipResponse
    simp only
    rw [hm, if_pos hcond]
    simp
  unfold Mgr.rcv
  rw [if_pos (by unfold Mgr.concerns; rw [hb]; simp [hr, hm]), ha]
  unfold Mgr.afterwards
  rw [if_pos hsaid]
  show ((m.askVip e st now p.vlan p.port p.ethSrc src dst).1 p.vlan.vid).eth src = some p.ethSrc
  unfold Mgr.askVip
  rw [hm, if_pos hcond, if_pos (by unfold Mgr.stateful; rw [hl]; rfl)]
  exact learnHost_eth m e st now p.vlan p.port p.ethSrc src

end Faucet.Route
