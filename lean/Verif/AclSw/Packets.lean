import Verif.AclSw.Tables

/-! # ACLs of ports on a switch: what rules do to packets -/

namespace Faucet.AclSw
open Faucet.OF Faucet.Acl

def WireT (tags : List (Nat × Nat)) : Prop := ∀ t ∈ tags, t.1 < 4096

theorem wire_push {tags : List (Nat × Nat)} (h : WireT tags) {v : PushVid} (hv : v.vid < 4096) : WireT (pushTag tags v) := by
  intro t ht
  rcases List.mem_cons.1 ht with rfl | ht
  · exact hv
  · exact h t ht

theorem wire_swap {tags : List (Nat × Nat)} (h : WireT tags) {v : Nat} (hv : v < 4096) : WireT (swapTag tags v) := by
  cases tags with
  | nil => exact h
  | cons x xs =>
    intro t ht
    rcases List.mem_cons.1 ht with rfl | ht
    · exact hv
    · exact h t (List.mem_cons_of_mem _ ht)

theorem wire_drop {tags : List (Nat × Nat)} (h : WireT tags) (n : Nat) : WireT (tags.drop n) :=
  fun t ht => h t (List.mem_of_mem_drop ht)

theorem wire_pushes {tags : List (Nat × Nat)} (h : WireT tags) {vs : List PushVid} (hv : ∀ v ∈ vs, v.vid < 4096) :
    WireT (vs.foldl pushTag tags) := by
  induction vs generalizing tags with
  | nil => exact h
  | cons v vs ih => exact ih (wire_push h (hv v List.mem_cons_self)) (fun x hx => hv x (List.mem_cons_of_mem _ hx))

theorem wire_new {tags : List (Nat × Nat)} (h : WireT tags) {d : OutDict} (hd : Sane d) : WireT (newTags d tags) := by
  have h' := wire_drop h (d.popVlans.getD 0)
  unfold newTags
  split
  · rename_i hv; exact wire_push h' (hd.vid _ hv)
  · rename_i hv; exact wire_swap h' (hd.swap _ hv)
  · exact wire_pushes h' hd.vids

theorem set_tags (fs : List (Nat × Nat)) (k : Pkt) : (fs.foldl setHdr k).tags = k.tags := by
  induction fs generalizing k with
  | nil => rfl
  | cons f fs ih => exact ih (setHdr k f)

theorem set_hdr {fs : List (Nat × Nat)} {g : Nat} (h : g ∉ fs.map (·.1)) (k : Pkt) : (fs.foldl setHdr k).hdr g = k.hdr g := by
  induction fs generalizing k with
  | nil => rfl
  | cons f fs ih =>
    have h1 : g ≠ f.1 := fun e => h (by rw [e]; exact List.mem_cons_self)
    have h2 := ih (fun e => h (List.mem_cons_of_mem _ e)) (setHdr k f)
    rw [List.foldl_cons, h2]
    show (if g = f.1 then some f.2 else k.hdr g) = k.hdr g
    rw [if_neg h1]

theorem no_ctl {k : Pkt} {n : Nat} {e : Emit} (hn : n ≠ portController) (hin : k.hdr fInPort ≠ some portController)
    (he : e ∈ emitPort k n) : e.port ≠ portController := by
  unfold emitPort at he
  split at he
  · split at he
    · rename_i i hi
      rw [List.mem_singleton.1 he]
      intro h
      have h : i = portController := h
      rw [h] at hi
      exact hin hi
    · cases he
  · split at he
    · cases he
    · rw [List.mem_singleton.1 he]; exact hn

/-- What an output does to the packet: it leaves the port it came in through, and VIDs have 12 bits; nothing goes to FAUCET. -/
structure Tame (k : Pkt) (r : List Emit × Pkt) : Prop where
  port : r.2.hdr fInPort = k.hdr fInPort
  wire : WireT k.tags → WireT r.2.tags
  quiet : k.hdr fInPort ≠ some portController → ∀ e ∈ r.1, e.port ≠ portController

theorem walk_tame {l : List OutAct} (hl : ∀ e ∈ l, ActOk e) (hp : portController ∉ outPorts (.ordered l))
    (hs : fInPort ∉ outSets (.ordered l)) (k : Pkt) : Tame k (walk l k) := by
  induction l generalizing k with
  | nil => exact ⟨rfl, id, fun _ e he => absurd he List.not_mem_nil⟩
  | cons a l ih =>
    have ha := hl a List.mem_cons_self
    have hp' : portController ∉ outPorts (.ordered l) := fun h => hp (List.mem_append_right _ h)
    have hs' : fInPort ∉ outSets (.ordered l) := fun h => hs (List.mem_append_right _ h)
    have ih := ih (fun e he => hl e (List.mem_cons_of_mem _ he)) hp' hs'
    cases a with
    | popVlans n =>
      have h := ih { k with tags := k.tags.drop n }
      exact ⟨h.port, fun hw => h.wire (wire_drop hw n), h.quiet⟩
    | vlanVid v =>
      have h := ih { k with tags := pushTag k.tags v }
      exact ⟨h.port, fun hw => h.wire (wire_push hw ha), h.quiet⟩
    | swapVid v =>
      have h := ih { k with tags := swapTag k.tags v }
      exact ⟨h.port, fun hw => h.wire (wire_swap hw ha), h.quiet⟩
    | vlanVids vs =>
      have h := ih { k with tags := vs.foldl pushTag k.tags }
      exact ⟨h.port, fun hw => h.wire (wire_pushes hw ha), h.quiet⟩
    | setFields fs =>
      have h := ih (fs.foldl setHdr k)
      have hin : (fs.foldl setHdr k).hdr fInPort = k.hdr fInPort := set_hdr (fun h => hs (List.mem_append_left _ h)) k
      refine ⟨h.port.trans hin, fun hw => h.wire (by rw [set_tags]; exact hw), ?_⟩
      intro hne
      exact h.quiet (by rw [hin]; exact hne)
    | port n =>
      have h := ih k
      refine ⟨h.port, h.wire, ?_⟩
      intro hne e he
      rcases List.mem_append.1 he with he | he
      · exact no_ctl (fun hn => hp (List.mem_append_left _ (by rw [hn]; exact List.mem_singleton_self _))) hne he
      · exact h.quiet hne e he
    | ports ns =>
      have h := ih k
      refine ⟨h.port, h.wire, ?_⟩
      intro hne e he
      rcases List.mem_append.1 he with he | he
      · obtain ⟨n, hn, he⟩ := List.mem_flatMap.1 he
        exact no_ctl (fun hc => hp (List.mem_append_left _ (by rw [← hc]; exact hn))) hne he
      · exact h.quiet hne e he
    | failover _ _ => exact ha.elim
    | tunnel _ => exact ha.elim
    | goto _ => exact ih k

theorem effect_tame {a : Actions} (h : RuleOk a) (k : Pkt) : Tame k (outEffect a.output k) := by
  cases ho : a.output with
  | none => exact ⟨rfl, id, fun _ e he => absurd he List.not_mem_nil⟩
  | some o =>
    have hok := h.direct.out o ho
    have hp := h.ports o ho
    have hs := h.sets o ho
    cases o with
    | dict d =>
      have hin : (rewritten d k).hdr fInPort = k.hdr fInPort := set_hdr hs _
      refine ⟨hin, ?_, ?_⟩
      · intro hw
        show WireT (rewritten d k).tags
        unfold rewritten
        rw [set_tags]
        exact wire_new hw hok.1
      · intro hne e he
        obtain ⟨n, hn, he⟩ := List.mem_flatMap.1 he
        exact no_ctl (fun hc => hp (by rw [← hc]; exact hn)) (by rw [hin]; exact hne) he
    | ordered l => exact walk_tame hok hp hs k

theorem first_mem {enc : Enc} {port vlan : Option Nat} {rules : List Rule} {r : Rule} {k : Pkt} (h : FirstMatch enc port vlan rules r k) :
    r ∈ rules := by
  obtain ⟨a, b, rfl, -⟩ := h
  simp

/-- The first rule that is met, if any is met. -/
theorem first_or_none (enc : Enc) (port vlan : Option Nat) (rules : List Rule) (k : Pkt) :
    (∃ r, FirstMatch enc port vlan rules r k) ∨ ∀ r ∈ rules, ¬ Meets enc port vlan r k := by
  induction rules with
  | nil => exact Or.inr (fun r hr => absurd hr List.not_mem_nil)
  | cons q rules ih =>
    by_cases hq : Meets enc port vlan q k
    · exact Or.inl ⟨q, [], rules, rfl, hq, fun x hx => absurd hx List.not_mem_nil⟩
    · rcases ih with ⟨r, a, b, rfl, h1, h2⟩ | h
      · refine Or.inl ⟨r, q :: a, b, rfl, h1, ?_⟩
        intro x hx
        rcases List.mem_cons.1 hx with rfl | hx
        · exact hq
        · exact h2 x hx
      · refine Or.inr ?_
        intro x hx
        rcases List.mem_cons.1 hx with rfl | hx
        · exact hq
        · exact h x hx

/-- What ACLs do to a packet: nothing they send goes to FAUCET; what they let through came in through the same port, and VIDs have 12 bits. -/
theorem verdict_tame {enc : Enc} {acls : List Acl.Acl} (h : AclsGood acls) {n : Nat} {k : Pkt} {cs : List Emit} {o : Option Pkt}
    (hv : Verdict enc acls n k cs o) : (k.hdr fInPort ≠ some portController → ∀ e ∈ cs, e.port ≠ portController) ∧
    ∀ k', o = some k' → k'.hdr fInPort = k.hdr fInPort ∧ (L2.Wire k → L2.Wire k') := by
  have hcs : ∀ r a, FirstMatch enc (some n) none (allRules acls) r k → r.actions = some a → k.hdr fInPort ≠ some portController →
      ∀ e ∈ a.mirror.toList.flatMap (emitPort k) ++ (outEffect a.output k).1, e.port ≠ portController := by
    intro r a hf ha hne e he
    have hok := h.rules r (first_mem hf) a ha
    rcases List.mem_append.1 he with he | he
    · obtain ⟨m, hm, he⟩ := List.mem_flatMap.1 he
      refine no_ctl ?_ hne he
      rintro rfl
      exact hok.mirror (Option.mem_toList.1 hm)
    · exact (effect_tame hok k).quiet hne e he
  cases hv with
  | noAcls _ => exact ⟨fun _ e he => absurd he List.not_mem_nil, fun k' hk => by cases hk; exact ⟨rfl, id⟩⟩
  | @allow r a _ hf ha _ =>
    refine ⟨hcs r a hf ha, fun k' hk => ?_⟩
    obtain rfl := Option.some.inj hk
    have ht := effect_tame (h.rules r (first_mem hf) a ha) k
    exact ⟨ht.port, ht.wire⟩
  | @stop r a _ hf ha _ => exact ⟨hcs r a hf ha, fun k' hk => by cases hk⟩
  | noActions _ _ _ => exact ⟨fun _ e he => absurd he List.not_mem_nil, fun k' hk => by cases hk⟩
  | noRule _ _ => exact ⟨fun _ e he => absurd he List.not_mem_nil, fun k' hk => by cases hk⟩

/-- Where a packet goes on to. -/
theorem goes_on {a : Actions} (h : RuleOk a) {pass forward t : Nat} (hg : GoesOn pass forward a t) : SaysAllow a ∧ t = pass := by
  cases hg with
  | goto ht => rw [h.noGoto] at ht; cases ht
  | allow h1 _ => exact ⟨h1, rfl⟩
  | force _ h2 => exact absurd h2 h.noForce

end Faucet.AclSw
