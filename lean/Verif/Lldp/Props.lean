import Verif.Lldp.Model

/-! # LLDP beacons: proofs (C73) -/

namespace Faucet.Lldp

/-! ## Numbers -/

theorem digitsF_lt (f : Nat) : ∀ n, ∀ d ∈ digitsF f n, d < 10 := by
  induction f with
  | zero => intro n d hd; cases hd
  | succ f ih =>
    intro n d hd
    unfold digitsF at hd
    split at hd
    · rw [List.mem_singleton.1 hd]; assumption
    · rcases List.mem_append.1 hd with h | h
      · exact ih _ _ h
      · rw [List.mem_singleton.1 h]; exact Nat.mod_lt _ (by decide)

theorem digitsF_ne (f n : Nat) : digitsF (f + 1) n ≠ [] := by
  unfold digitsF
  split
  · simp
  · simp

theorem digitsF_val (f : Nat) : ∀ n, n < f → ((digitsF f n).map (· + 48)).foldl (fun a d => a * 10 + (d - 48)) 0 = n := by
  induction f with
  | zero => intro n h; omega
  | succ f ih =>
    intro n h
    unfold digitsF
    split
    · simp
    · rename_i h10
      rw [List.map_append, List.foldl_append, ih (n / 10) (by omega)]
      simp only [List.map_cons, List.map_nil, List.foldl_cons, List.foldl_nil]
      omega

theorem readNat_dec (n : Nat) : readNat (dec n) = some n := by
  unfold readNat
  have h1 : dec n ≠ [] := by
    unfold dec
    intro h
    exact digitsF_ne n n (List.map_eq_nil_iff.1 h)
  have h2 : (dec n).all (fun d => decide (48 ≤ d ∧ d ≤ 57)) = true := by
    rw [List.all_eq_true]
    intro d hd
    obtain ⟨x, hx, rfl⟩ := List.mem_map.1 hd
    have := digitsF_lt _ _ x hx
    simp only [decide_eq_true_eq]
    omega
  rw [if_pos ⟨h1, h2⟩]
  unfold dec
  rw [digitsF_val (n + 1) n (by omega)]

/-- FAUCET reads the numbers that it writes. -/
theorem readInt_dec (n : Nat) : readInt (dec n) = some (n : Int) := by
  have h := readNat_dec n
  unfold readInt
  split
  · rename_i r he
    exfalso
    have : (45 : Nat) ∈ dec n := by rw [he]; exact List.mem_cons_self
    obtain ⟨x, hx, hx'⟩ := List.mem_map.1 this
    omega
  · rw [h]; rfl

theorem readInt_decInt (i : Int) : readInt (decInt i) = some i := by
  cases i with
  | ofNat n => exact readInt_dec n
  | negSucc n =>
    show (readNat (dec (n + 1))).map (fun n => - (n : Int)) = _
    rw [readNat_dec]
    rfl

/-! ## Frames -/

theorem length_encode_le {t : Tlv} {ts : List Tlv} (h : t ∈ ts) : t.2.length + 2 ≤ (encode ts).length := by
  induction ts with
  | nil => cases h
  | cons x ts ih =>
    unfold encode at ih ⊢
    rw [List.flatMap_cons, List.length_append]
    rcases List.mem_cons.1 h with rfl | h
    · simp [encodeTlv]
    · have := ih h; omega

/-- What is written is read again. -/
theorem decodeF_encode (ts : List Tlv) (hb : ∀ t ∈ ts, t.1 ≠ tEnd ∧ t.2.length < 512) (rest : Bytes) :
    ∀ f, ts.length < f → decodeF f (encode (ts ++ [(tEnd, [])]) ++ rest) = some (ts ++ [(tEnd, [])]) := by
  induction ts with
  | nil =>
    intro f hf
    obtain ⟨f, rfl⟩ : ∃ g, f = g + 1 := ⟨f - 1, by simp at hf; omega⟩
    simp [encode, encodeTlv, decodeF, tEnd]
  | cons t ts ih =>
    intro f hf
    obtain ⟨f, rfl⟩ : ∃ g, f = g + 1 := ⟨f - 1, by simp at hf; omega⟩
    have ht := hb t List.mem_cons_self
    have hi := ih (fun x hx => hb x (List.mem_cons_of_mem _ hx)) f (by simp at hf; omega)
    obtain ⟨ty, v⟩ := t
    have e : encode ((ty, v) :: ts ++ [(tEnd, [])]) ++ rest
        = (ty * 2 + v.length / 256) :: (v.length % 256) :: (v ++ (encode (ts ++ [(tEnd, [])]) ++ rest)) := by
      simp [encode, encodeTlv]
    rw [e]
    unfold decodeF
    have hl : (ty * 2 + v.length / 256) % 2 * 256 + v.length % 256 = v.length := by
      have := ht.2; simp only at this; omega
    have hty : (ty * 2 + v.length / 256) / 2 = ty := by
      have := ht.2; simp only at this; omega
    simp only [hl, hty]
    rw [if_neg (by simp), if_neg ht.1, List.drop_left, List.take_left, hi]
    rfl

/-- All TLVs but the last. -/
def bodyTlvs (d : Dp) (p : Port) : List Tlv :=
  [(tChassis, 4 :: d.mac), (tPort, 5 :: dec p.number), (tTtl, [ttl d / 256, ttl d % 256]), (tSysName, systemName d p)]
  ++ descrTlvs p
  ++ (p.orgTlvs ++ dpTlvs d ++ stateTlvs d p).map orgTlv

theorem beacon_eq (d : Dp) (p : Port) : beaconTlvs d p = bodyTlvs d p ++ [(tEnd, [])] := rfl

theorem body_ne_end {d : Dp} {p : Port} : ∀ t ∈ bodyTlvs d p, t.1 ≠ tEnd := by
  intro t ht
  unfold bodyTlvs at ht
  rcases List.mem_append.1 ht with ht | ht
  · rcases List.mem_append.1 ht with ht | ht
    · simp only [List.mem_cons, List.not_mem_nil, or_false] at ht
      rcases ht with rfl | rfl | rfl | rfl <;> exact fun h => by cases h
    · unfold descrTlvs at ht
      split at ht
      · cases ht
      · rw [List.mem_singleton.1 ht]; exact fun h => by cases h
  · obtain ⟨x, -, rfl⟩ := List.mem_map.1 ht
    exact fun h => by cases h

theorem length_le_encode (ts : List Tlv) : ts.length ≤ (encode ts).length := by
  induction ts with
  | nil => simp [encode]
  | cons t ts ih =>
    unfold encode at ih ⊢
    rw [List.flatMap_cons, List.length_append, List.length_cons]
    simp only [encodeTlv, List.length_append, List.length_cons, List.length_nil]
    omega

theorem length_frame {d : Dp} {p : Port} (hm : d.mac.length = 6) : (frame d p).length = 14 + (encode (beaconTlvs d p)).length := by
  simp [frame, nearestBridge, hm]; omega

/-- A beacon that is not longer than what the switch sends to FAUCET is read as it was written. -/
theorem read_beacon {d : Dp} {p : Port} (hm : d.mac.length = 6) (hl : (frame d p).length ≤ maxLen) :
    readLldp ((frame d p).take maxLen) = some (beaconTlvs d p) := by
  rw [List.take_of_length_le hl]
  have hlen := length_frame (p := p) hm
  obtain ⟨a, b, c, x, y, z, hmac⟩ : ∃ a b c x y z, d.mac = [a, b, c, x, y, z] := by
    match hd : d.mac, hm with
    | [a, b, c, x, y, z], _ => exact ⟨a, b, c, x, y, z, rfl⟩
  have h1 : ((frame d p).drop 12).take 2 = [0x88, 0xcc] := by
    unfold frame; rw [hmac]; rfl
  have h2 : (frame d p).drop 14 = encode (beaconTlvs d p) := by
    unfold frame; rw [hmac]; rfl
  unfold readLldp
  rw [if_pos h1, h2]
  unfold decode
  have hd := decodeF_encode (bodyTlvs d p) (fun t ht => ⟨body_ne_end t ht, by
    have := length_encode_le (t := t) (ts := beaconTlvs d p) (by rw [beacon_eq]; exact List.mem_append_left _ ht)
    unfold maxLen at hl
    omega⟩) [] (encode (beaconTlvs d p)).length (by
      have := length_le_encode (beaconTlvs d p)
      rw [beacon_eq] at this ⊢
      simp only [List.length_append, List.length_cons, List.length_nil] at this
      omega)
  rw [List.append_nil, ← beacon_eq] at hd
  rw [hd]
  rfl

theorem org_values (d : Dp) (p : Port) :
    byType (beaconTlvs d p) tOrg = (p.orgTlvs ++ dpTlvs d ++ stateTlvs d p).map (fun t => t.1 ++ t.2.1 :: t.2.2) := by
  have hf : ∀ l : List (Bytes × Nat × Bytes), (l.map orgTlv).filter (fun x => x.1 == tOrg) = l.map orgTlv := by
    intro l
    rw [List.filter_eq_self]
    intro t ht
    obtain ⟨x, -, rfl⟩ := List.mem_map.1 ht
    rfl
  have hd : (descrTlvs p).filter (fun x => x.1 == tOrg) = [] := by
    unfold descrTlvs
    cases p.descr <;> rfl
  unfold byType beaconTlvs
  rw [List.filter_append, List.filter_append, List.filter_append, hf, hd]
  have h4 : ([(tChassis, 4 :: d.mac), (tPort, 5 :: dec p.number), (tTtl, [ttl d / 256, ttl d % 256]),
      (tSysName, systemName d p)] : List Tlv).filter (fun x => x.1 == tOrg) = [] := rfl
  have h5 : ([(tEnd, [])] : List Tlv).filter (fun x => x.1 == tOrg) = [] := rfl
  rw [h4, h5, List.nil_append, List.nil_append, List.append_nil, List.map_map]
  rfl

theorem first_name (d : Dp) (p : Port) : ∃ r, byType (beaconTlvs d p) tSysName = systemName d p :: r := ⟨_, rfl⟩

theorem first_port (d : Dp) (p : Port) : ∃ r, byType (beaconTlvs d p) tPort = (5 :: dec p.number) :: r := ⟨_, rfl⟩

/-- Configured TLVs do not look like FAUCET's own. -/
def Apart (d : Dp) (p : Port) : Prop :=
  ∀ t ∈ p.orgTlvs, t.1.length = 3 ∧ (t.1 = oui d.mac → t.2.1 ≠ sDpId ∧ t.2.1 ≠ sState)

theorem sub_first {d : Dp} {p : Port} (hm : d.mac.length = 6) (ha : Apart d p) {mac : Bytes} (ho : oui mac = oui d.mac) {s : Nat}
    (hs : s = sDpId ∨ s = sState) : bySubtype (faucetTlvs (beaconTlvs d p) mac) s =
      bySubtype ((dpTlvs d ++ stateTlvs d p).map (fun t => t.1 ++ t.2.1 :: t.2.2)) s := by
  have hol : (oui d.mac).length = 3 := by simp [oui, hm]
  unfold faucetTlvs
  rw [org_values, List.append_assoc, List.map_append, List.filter_append]
  have h1 : ((dpTlvs d ++ stateTlvs d p).map (fun t => t.1 ++ t.2.1 :: t.2.2)).filter (fun v => v.take 3 == oui mac)
      = (dpTlvs d ++ stateTlvs d p).map (fun t => t.1 ++ t.2.1 :: t.2.2) := by
    rw [List.filter_eq_self]
    intro v hv
    obtain ⟨t, ht, rfl⟩ := List.mem_map.1 hv
    have h1 : t.1 = oui d.mac := by
      rcases List.mem_append.1 ht with ht | ht
      · rw [List.mem_singleton.1 ht]
      · unfold stateTlvs at ht
        split at ht
        · cases ht
        · rw [List.mem_singleton.1 ht]
    rw [h1, ho, beq_iff_eq, ← hol, List.take_left]
  rw [h1]
  unfold bySubtype
  rw [List.filter_append, List.map_append]
  have h2 : ((p.orgTlvs.map (fun t => t.1 ++ t.2.1 :: t.2.2)).filter (fun v => v.take 3 == oui mac)).filter
      (hasSubtype s) = [] := by
    rw [List.filter_eq_nil_iff]
    intro v hv
    obtain ⟨hv, h3⟩ := List.mem_filter.1 hv
    obtain ⟨t, ht, rfl⟩ := List.mem_map.1 hv
    obtain ⟨hl, hne⟩ := ha t ht
    rw [← hl, List.take_left, ho, beq_iff_eq] at h3
    unfold hasSubtype
    rw [← hl, List.drop_left]
    simp only [List.head?_cons, beq_iff_eq, Option.some.injEq]
    have := hne h3
    rcases hs with rfl | rfl
    · exact this.1
    · exact this.2
  rw [h2]
  rfl

/-- **C73.** A beacon says who sent it: a switch that is configured with the same vendor part of the MAC address reads the
datapath ID, the system name, the port number and the state of the stack port that sent it. Partial: for beacons of at most 128
bytes, see `long_description_defect`, and if configured TLVs do not look like FAUCET's, see `shadowing_tlv_defect`. -/
theorem beacon_identifies_sender_partial {d : Dp} {p : Port} (hm : d.mac.length = 6) (hl : (frame d p).length ≤ 128) (ha : Apart d p)
    {mac : Bytes} (ho : mac.take 3 = d.mac.take 3) :
    hear mac (frame d p) = some ⟨some d.dpId, some (systemName d p), some p.number, p.stack⟩ := by
  have hol : (oui d.mac).length = 3 := by simp [oui, hm]
  unfold hear
  rw [read_beacon hm hl]
  simp only [Option.map_some, Option.some.injEq]
  unfold parse
  have hsub : ∀ (s s' : Nat) (b : Bytes), hasSubtype s' (oui d.mac ++ s :: b) = (s == s') := by
    intro s s' b
    unfold hasSubtype
    rw [← hol, List.drop_left]
    simp
  have hinfo : ∀ (s : Nat) (b : Bytes), info (oui d.mac ++ s :: b) = b := by
    intro s b
    unfold info
    have : (oui d.mac ++ s :: b).drop 4 = ((oui d.mac ++ s :: b).drop 3).drop 1 := by rw [List.drop_drop]
    rw [this, ← hol, List.drop_left]; rfl
  have hid : bySubtype (faucetTlvs (beaconTlvs d p) mac) sDpId = [dec d.dpId] := by
    rw [sub_first hm ha ho (.inl rfl)]
    unfold bySubtype dpTlvs stateTlvs
    cases p.stack with
    | none =>
      simp only [List.append_nil, List.map_cons, List.map_nil, List.filter_cons, hsub, List.filter_nil]
      simp [hinfo]
    | some i =>
      simp only [List.cons_append, List.nil_append, List.map_cons, List.map_nil, List.filter_cons, hsub, List.filter_nil]
      simp [hinfo, sDpId, sState]
  have hst : castFirst readInt (bySubtype (faucetTlvs (beaconTlvs d p) mac) sState) = p.stack := by
    rw [sub_first hm ha ho (.inr rfl)]
    unfold bySubtype dpTlvs stateTlvs
    cases p.stack with
    | none =>
      simp only [List.append_nil, List.map_cons, List.map_nil, List.filter_cons, hsub, List.filter_nil]
      simp [sDpId, sState, castFirst]
    | some i =>
      simp only [List.cons_append, List.nil_append, List.map_cons, List.map_nil, List.filter_cons, hsub, List.filter_nil]
      simp [hinfo, sDpId, sState, castFirst, readInt_decInt]
  have hne : faucetTlvs (beaconTlvs d p) mac ≠ [] := by
    intro h
    rw [h] at hid
    cases hid
  rw [if_neg hne, hst, hid]
  obtain ⟨r1, h1⟩ := first_name d p
  obtain ⟨r2, h2⟩ := first_port d p
  rw [h1, h2]
  simp [castFirst, readInt_dec]

/-- **C73.** Beacons of different switches or different ports are told apart. -/
theorem beacons_differ_partial {d d' : Dp} {p p' : Port} (hm : d.mac.length = 6) (hm' : d'.mac.length = 6)
    (hl : (frame d p).length ≤ 128) (hl' : (frame d' p').length ≤ 128) (ha : Apart d p) (ha' : Apart d' p') {mac : Bytes}
    (ho : mac.take 3 = d.mac.take 3) (ho' : mac.take 3 = d'.mac.take 3) (h : hear mac (frame d p) = hear mac (frame d' p')) :
    d.dpId = d'.dpId ∧ p.number = p'.number := by
  rw [beacon_identifies_sender_partial hm hl ha ho, beacon_identifies_sender_partial hm' hl' ha' ho'] at h
  simp only [Option.some.injEq, Info.mk.injEq, Int.natCast_inj] at h
  exact ⟨h.1, h.2.2.1⟩

/-- **C73.** LLDP of others says nothing to FAUCET: without TLVs of FAUCET's vendor, nothing is read. -/
theorem others_say_nothing {mac fr : Bytes} {ts : List Tlv} (hr : readLldp (fr.take maxLen) = some ts)
    (h : ∀ t ∈ ts, t.1 = 127 → t.2.take 3 ≠ mac.take 3) : hear mac fr = some ⟨none, none, none, none⟩ := by
  unfold hear
  rw [hr]
  simp only [Option.map_some, Option.some.injEq]
  unfold parse
  have : faucetTlvs ts mac = [] := by
    unfold faucetTlvs
    rw [List.filter_eq_nil_iff]
    intro v hv
    obtain ⟨t, ht, rfl⟩ := List.mem_map.1 hv
    obtain ⟨ht, h1⟩ := List.mem_filter.1 ht
    have := h t ht (by simpa [tOrg] using h1)
    simpa [oui] using this
  rw [if_pos this]

/-! ## Links of a stack -/

/-- What is read, as `Verif.Stack.Link` has it. Names are compared only, so any injective numbering will do. -/
def Info.toLink (num : Bytes → Nat) (i : Info) : Stack.Lldp := ⟨i.dpId.map Int.toNat, i.name.map num, i.port.map Int.toNat, i.state⟩

/-- The switch and port that the configuration expects at the other end of a stack port (`stack: dp`, `stack: port`). -/
def expects (num : Bytes → Nat) (d : Dp) (p : Port) (interval maxLost : Int) : Stack.LCfg := ⟨d.dpId, num d.name, p.number, interval, maxLost⟩

/-- The beacon that `Verif.Stack.Link` has is what a neighbour reads. -/
theorem beacon_refines {d : Dp} {p : Port} (hm : d.mac.length = 6) (hl : (frame d p).length ≤ 128) (ha : Apart d p)
    {mac : Bytes} (ho : mac.take 3 = d.mac.take 3) {st : Stack.LState} (hs : p.stack = some st.code) (num : Bytes → Nat) :
    (hear mac (frame d p)).map (Info.toLink num) = some (Stack.beacon d.dpId (num (systemName d p)) none p.number st) := by
  rw [beacon_identifies_sender_partial hm hl ha ho, hs]
  rfl

/-- **C73.** A link of a stack that is cabled as configured comes up with the first beacon. Partial: without configured system
names, see `Stack.Ex.system_name_defect`, and for datapath IDs other than 0, see `zero_id_defect`; conditions as before. -/
theorem right_cable_comes_up_partial {d : Dp} {p : Port} (hm : d.mac.length = 6) (hl : (frame d p).length ≤ 128) (ha : Apart d p)
    {mac : Bytes} (ho : mac.take 3 = d.mac.take 3) (hn : systemName d p = d.name) (hid : d.dpId ≠ 0) (hp : p.number ≠ 0)
    {st : Stack.LState} (hs : p.stack = some st.code) (num : Bytes → Nat) {interval maxLost : Int} (hi : 0 < maxLost * interval)
    (now : Int) {q : Stack.LPort} (hq : q.state ≠ .adminDown) :
    ∃ i, hear mac (frame d p) = some i ∧
      ∃ q', Stack.lldpRecv (expects num d p interval maxLost) now (i.toLink num) q = some q' ∧ q'.state = .up := by
  refine ⟨_, beacon_identifies_sender_partial hm hl ha ho, ?_⟩
  have := Stack.beacon_brings_up (expects num d p interval maxLost) now q st hq hid hp hi
  rw [hn, hs]
  exact this

/-- **C73.** A link of a stack that is not cabled as configured, so that beacons of another switch or another port arrive, is taken
down. Conditions as before, but system names do not matter. -/
theorem wrong_cable_goes_down_partial {d d' : Dp} {p p' : Port} (hm : d'.mac.length = 6) (hl : (frame d' p').length ≤ 128)
    (ha : Apart d' p') {mac : Bytes} (ho : mac.take 3 = d'.mac.take 3) (hid : d'.dpId ≠ 0) (hp : p'.number ≠ 0)
    {st : Stack.LState} (hs : p'.stack = some st.code) (hne : d'.dpId ≠ d.dpId ∨ p'.number ≠ p.number) (num : Bytes → Nat)
    {interval maxLost : Int} (hi : 0 < maxLost * interval) (now : Int) {q : Stack.LPort} (hq : q.state ≠ .adminDown) :
    ∃ i, hear mac (frame d' p') = some i ∧
      ∃ q', Stack.lldpRecv (expects num d p interval maxLost) now (i.toLink num) q = some q' ∧ q'.state = .bad := by
  refine ⟨_, beacon_identifies_sender_partial hm hl ha ho, ?_⟩
  rw [hs]
  generalize hb : Info.toLink num ⟨some (d'.dpId : Int), some (systemName d' p'), some (p'.number : Int), some st.code⟩ = l
  have hl1 : l.dpId = some d'.dpId := by rw [← hb]; rfl
  have hl2 : l.port = some p'.number := by rw [← hb]; rfl
  have hl3 : l.state = some st.code := by rw [← hb]; rfl
  have h1 : Stack.logRaises l q = false := by
    unfold Stack.logRaises
    have : Stack.knownState st.code = true := by cases st <;> rfl
    simp [hl2, hl3, this]
  have h2 : Stack.fromFaucet l = true := by
    simp [Stack.fromFaucet, hl1, hl2, hid, hp]
  unfold Stack.lldpRecv
  rw [h1, h2]
  simp only [Bool.false_eq_true, if_false, if_true]
  unfold Stack.verifyLldp Stack.portUpdate
  dsimp only
  split
  · rename_i h; exact absurd h hq
  · have hx : ¬ (l.dpId = some d.dpId ∧ l.name = some (num d.name) ∧ l.port = some p.number) := by
      rintro ⟨e1, -, e3⟩
      rw [hl1] at e1
      rw [hl2] at e3
      rcases hne with h | h
      · exact h (by injection e1)
      · exact h (by injection e3)
    have hx' : ¬ (l.dpId = some (expects num d p interval maxLost).peerDpId ∧ l.name = some (expects num d p interval maxLost).peerName ∧
        l.port = some (expects num d p interval maxLost).peerPort) := hx
    have hi' : (0 : Int) < (expects num d p interval maxLost).maxLost * (expects num d p interval maxLost).interval := hi
    rw [if_pos (by omega)]
    rw [decide_eq_false hx']
    exact ⟨_, rfl, rfl⟩

/-- **C73.** What others send does not change a link. -/
theorem others_change_nothing {mac fr : Bytes} {ts : List Tlv} (hr : readLldp (fr.take maxLen) = some ts)
    (h : ∀ t ∈ ts, t.1 = 127 → t.2.take 3 ≠ mac.take 3) (num : Bytes → Nat) (c : Stack.LCfg) (now : Int) (q : Stack.LPort) :
    ∃ i q', hear mac fr = some i ∧ Stack.lldpRecv c now (i.toLink num) q = some q' ∧ q'.state = q.state ∧ q'.probe = q.probe := by
  refine ⟨_, ⟨q.state, q.probe, none⟩, others_say_nothing hr h, ?_, rfl, rfl⟩
  rfl

end Faucet.Lldp
