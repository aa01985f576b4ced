import Verif.NetLemmas
import Mathlib.Logic.Relation

/-!
# C71: no pad is used for two messages, in a net of stations
-/

namespace K431

open Spec

/-- C71 as listed, for what is required of a station before it sends. -/
def C71_When (U : Unicode) (ready : Net → Nat → Prop) : Prop :=
  ∀ n0 n : Net, n0.Start → Relation.ReflTransGen (NetStep U ready) n0 n → (n.sent.flatMap Sent.pads).Nodup

/-- C71 as listed: stations send when they like. -/
def C71_Statement : Prop := ∀ U : Unicode, U.Lawful → C71_When U (fun _ _ => True)

/-- a net in which two stations hold a pad -/
def exNet : Net := ⟨fun s => if s < 2 then exInst [exKey 1 "A" "QWERTYUIOP"] else exInst [], [], []⟩

theorem exNet_start : exNet.Start := by
  refine ⟨⟨rfl, rfl⟩, ⟨1, by decide, ?_⟩, ?_, ?_⟩
  · intro s; simp only [exNet]; split <;> rfl
  · intro s; simp only [exNet]; split <;> decide
  · intro s t k hk l hl _
    have h : ∀ s, ∀ k ∈ (exNet.station s).keys, k = exKey 1 "A" "QWERTYUIOP" := by
      intro s k hk
      simp only [exNet] at hk
      split at hk
      · simpa [exInst] using hk
      · simp [exInst] at hk
    rw [h s k hk, h t l hl]

/-- The statement is false: two stations that hold the same pad both select it if none has read the other's message. -/
theorem C71_violated : ¬ C71_Statement := by
  intro h
  have h1 : NetStep unicode15 (fun _ _ => True) exNet _ := .send exNet 0 (fun _ => 0) [] (exMsg "HEJ") _ _ _ trivial rfl rfl
  have := h unicode15 unicode15_lawful exNet _ exNet_start ((Relation.ReflTransGen.single h1).tail
    (.send _ 1 (fun _ => 0) [] (exMsg "HEJ") _ _ _ trivial rfl rfl))
  revert this
  decide

/-- one event -/
theorem NInv.step {U : Unicode} (hU : U.Lawful) {n0 n n' : Net} (h0 : n0.Start) (h : NInv U n0 n) (hs : NetStep U UpToDate n n') : NInv U n0 n' := by
  cases hs with
  | send s noise f m m' chunks i hready hauto henc =>
    have hwf := h.wellFormed h0 s
    obtain ⟨c1, c2⟩ := C15_partial U hU noise f _ i m m' chunks (hwf.distinguishable hU) hauto henc
    have hm : Marked (n.station s).keys i.keys := ⟨c1, fun j k hj => ⟨_, c2 j k hj⟩⟩
    obtain ⟨inst1, m1, i1, s1, out, e⟩ := encipherT_ok henc
    obtain ⟨_, f2, f3⟩ := e.auto_flags hU hauto (hwf.distinguishable hU)
    have hgs : i.groupSize = (n.station s).groupSize := by
      rw [e.hinst]; exact e.hg1
    have hb := h.mark hm hgs
    have hlen : ∀ (a : List Sent) (x : Sent) (j : Nat) (y : Sent), (a ++ [x])[j]? = some y → a[j]? = some y ∨ (j = a.length ∧ y = x) := by
      intro a x j y hj
      by_cases hl : j < a.length
      · rw [List.getElem?_append_left hl] at hj; exact .inl hj
      · rw [List.getElem?_append_right (by omega)] at hj
        obtain ⟨h1, h2⟩ := List.getElem?_eq_some_iff.1 hj
        simp at h1
        simp at h2
        exact .inr ⟨by omega, h2.symm⟩
    refine ⟨hb.mat, hb.size, ?_, ?_, ?_, ?_, ?_⟩
    · intro msg hmsg
      rcases List.mem_append.1 hmsg with hmsg | hmsg
      · exact hb.origin msg hmsg
      · rw [List.mem_singleton] at hmsg
        subst hmsg
        exact ⟨noise, f, _, i, m, m', chunks, henc, h.size s, h.mat s, rfl, rfl, rfl, rfl⟩
    · intro msg hmsg id hid
      rcases List.mem_append.1 hmsg with hmsg | hmsg
      · exact hb.own msg hmsg id hid
      · rw [List.mem_singleton] at hmsg
        subst hmsg
        intro k hk hkid
        have hk' : k ∈ i.keys := by
          have : k ∈ (n.set s i s).keys := hk
          simpa [Net.set] using this
        obtain ⟨j, k0, hj, hk0, he⟩ := padsOf_mem hid
        obtain ⟨j', hj'⟩ := List.mem_iff_getElem?.1 hk'
        have hw' : WellFormed i.keys := hwf.congr hm.sameMat.symm
        have hn := c2 j k0 hk0
        have : j' = j := hw'.inj hj' hn (by rw [hkid]; exact he.symm)
        subst this
        rw [hj'] at hn
        cases hn
        simp [hj]
    · intro t number hr msg hmsg
      rcases hlen _ _ _ _ hmsg with h1 | ⟨h1, _⟩
      · exact hb.read t number hr msg h1
      · have := h.number t number hr
        omega
    · intro t number hr
      have := h.number t number hr
      simp only [List.length_append]
      omega
    · rw [List.flatMap_append]
      refine List.nodup_append.2 ⟨h.nodup, by simpa using padsOf_nodup hwf f2, ?_⟩
      intro id hid id' hid' he
      subst he
      simp only [List.flatMap_cons, List.flatMap_nil, List.append_nil] at hid'
      obtain ⟨j, k, hj, hk, hkid⟩ := padsOf_mem hid'
      obtain ⟨k1, hk1, hel⟩ := f3 j hj
      rw [hk] at hk1
      cases hk1
      obtain ⟨msg, hmsg, hpad⟩ := List.mem_flatMap.1 hid
      have hused : k.used = true := by
        by_cases hsend : msg.sender = s
        · exact h.own msg hmsg id hpad k (by rw [hsend]; exact List.mem_of_getElem? hk) hkid
        · obtain ⟨number, hnum⟩ := List.mem_iff_getElem?.1 hmsg
          exact h.read s number (hready number msg hnum hsend ⟨k, List.mem_of_getElem? hk, by rw [hkid]; exact hpad⟩) msg hnum id hpad k
            (List.mem_of_getElem? hk) hkid
      rw [hel.1] at hused
      cases hused
  | receive s f number msg m m' i hmsg hk hc hd =>
    obtain ⟨hm, hgs⟩ := decipher_marked hU (h.groupSize h0 s) hd
    have hb := h.mark hm hgs
    refine ⟨hb.mat, hb.size, hb.origin, hb.own, ?_, ?_, hb.nodup⟩
    · intro t num hr msg' hmsg'
      rcases List.mem_cons.1 hr with hr | hr
      · cases hr
        rw [hmsg] at hmsg'
        cases hmsg'
        obtain ⟨noise, f1, inst, inst', m1, m1', chunks, henc, g1, g2, _, g3, g4, g5⟩ := h.origin msg (List.mem_of_getElem? hmsg)
        obtain ⟨g, _, hg⟩ := h0.size
        have hws : WellFormed inst.keys := (h0.ids msg.sender).congr g2.symm
        have hmarks := reading_marks hU henc (rcv := n.station s) (by rw [h.size, g1, hg, hg]) hws (h.wellFormed h0 s) (by
          intro ch _ k ha l hl he
          obtain ⟨b, hb⟩ := List.mem_iff_getElem?.1 hl
          obtain ⟨k0, hk0, e1⟩ := g2.get ha
          obtain ⟨l0, hl0, e2⟩ := (h.mat s).get hb
          rw [← Key.mat_runes e1, ← Key.mat_runes e2]
          exact h0.copies _ _ k0 (List.mem_of_getElem? hk0) l0 (List.mem_of_getElem? hl0) (by rw [Key.mat_id e1, Key.mat_id e2]; exact he))
          (by rw [hk, g3]) (by rw [hc, g4]) hd
        intro id hid k hk' hkid
        rw [g5] at hid
        obtain ⟨k2, hk2, e1, e2⟩ := hmarks id hid
        have hk3 : k ∈ i.keys := by
          have : k ∈ (n.set s i s).keys := hk'
          simpa [Net.set] using this
        have hw' : WellFormed i.keys := (h.wellFormed h0 s).congr hm.sameMat.symm
        obtain ⟨a, ha⟩ := List.mem_iff_getElem?.1 hk2
        obtain ⟨b, hb⟩ := List.mem_iff_getElem?.1 hk3
        have := hw'.inj ha hb (by rw [e1, hkid])
        subst this
        rw [ha] at hb
        cases hb
        exact e2
      · exact hb.read t num hr msg' hmsg'
    · intro t num hr
      rcases List.mem_cons.1 hr with hr | hr
      · cases hr
        exact (List.getElem?_eq_some_iff.1 hmsg).1
      · exact h.number t num hr
  | fails s f m m' i o ho hd =>
    obtain ⟨hm, hgs⟩ := decipher_marked hU (h.groupSize h0 s) hd
    exact h.mark hm hgs

theorem NInv.reached {U : Unicode} (hU : U.Lawful) {n0 n : Net} (h0 : n0.Start) (hr : Relation.ReflTransGen (NetStep U UpToDate) n0 n) :
    NInv U n0 n := by
  induction hr with
  | refl => exact NInv.start h0
  | tail _ hs ih => exact ih.step hU h0 hs

/-- C71, what holds: if every station, before it sends, has read the messages of the others that were enciphered with pads that it
holds.  Missing: stations that send at the same time. -/
theorem C71_partial (U : Unicode) (hU : U.Lawful) : C71_When U UpToDate := fun _ _ h0 hr => (NInv.reached hU h0 hr).nodup

/-- A station that holds the pads of a message can read it, whatever has happened since, and gets its text. -/
theorem C71_readable (U : Unicode) (hU : U.Lawful) (n0 n : Net) (h0 : n0.Start) (hr : Relation.ReflTransGen (NetStep U UpToDate) n0 n)
    (s number : Nat) (msg : Sent) (hmsg : n.sent[number]? = some msg) (hpads : ∀ id ∈ msg.pads, ∃ k ∈ (n.station s).keys, k.id.val = id)
    (f : Runes) (m : Msg) (hk : m.keyId.val = msg.keyId) (hc : m.cipherText = msg.cipherText) :
    ∃ i m', decipher U f (n.station s) m = (.ok (), i, m') ∧ m'.plainText = msg.text.map canon := by
  have h := NInv.reached hU h0 hr
  obtain ⟨noise, f1, inst, inst', m1, m1', chunks, henc, g1, g2, g0, g3, g4, g5⟩ := h.origin msg (List.mem_of_getElem? hmsg)
  obtain ⟨g, _, hg⟩ := h0.size
  obtain ⟨inst1, m2, i, st, out, e⟩ := encipherT_ok henc
  obtain ⟨stack, hd, _⟩ := e.decipher hU f (n.station s) (by rw [h.size, g1, hg, hg]) (by
    intro ch hch
    obtain ⟨k, hk, _⟩ := e.keys ch hch
    obtain ⟨l, hl, hid⟩ := hpads k.id.val (by
      rw [g5]
      exact List.mem_filterMap.2 ⟨ch, hch, by rw [hk]; rfl⟩)
    obtain ⟨j, hj⟩ := List.mem_iff_getElem?.1 hl
    refine ⟨k, j, l, hk, ?_, hj, ?_⟩
    · rw [← hid]; exact (h.wellFormed h0 s).getKey hU hj
    · obtain ⟨k0, hk0, e1⟩ := g2.get hk
      obtain ⟨l0, hl0, e2⟩ := (h.mat s).get hj
      rw [← Key.mat_runes e1, ← Key.mat_runes e2]
      exact h0.copies _ _ l0 (List.mem_of_getElem? hl0) k0 (List.mem_of_getElem? hk0) (by rw [Key.mat_id e1, Key.mat_id e2]; exact hid))
    m (by rw [hk, g3]) (by rw [hc, g4])
  exact ⟨_, _, hd, by rw [g0]⟩

/-- two stations with two pads -/
def exNet2 : Net := ⟨fun _ => exInst [exKey 1 "A" "QWERTYUIOP", exKey 2 "B" "ASDFGHJKLM"], [], []⟩

/-- a station sends HEJ, if it can -/
def exNetSend (s : Nat) (n : Net) : Net :=
  match encipherT unicode15 (fun _ => 0) [] (n.station s) (exMsg "HEJ") with
  | (.ok chunks, i, m') => ⟨n.set s i, n.sent ++ [⟨s, (exMsg "HEJ").plainText, m'.keyId.val, m'.cipherText, padsOf (n.station s).keys chunks⟩], n.read⟩
  | _ => n

/-- a station reads a message, if it can -/
def exNetReceive (s number : Nat) (n : Net) : Net :=
  match n.sent[number]? with
  | some msg =>
    match decipher unicode15 [] (n.station s) { exMsg "" with keyId := ⟨0, msg.keyId⟩, cipherText := msg.cipherText } with
    | (.ok (), i, _) => ⟨n.set s i, n.sent, (s, number) :: n.read⟩
    | _ => n
  | none => n

/-- station 0 sends, station 1 reads and then answers -/
def exNetTalk : Net := exNetSend 1 (exNetReceive 1 0 (exNetSend 0 exNet2))

/-- not vacuous: the second station uses the other pad -/
example : exNetTalk.sent.map Sent.pads = [[lit "A"], [lit "B"]] ∧ exNetTalk.sent.map Sent.sender = [0, 1] ∧ exNetTalk.read = [(1, 0)] := by decide

example : exNet2.Start := by
  refine ⟨⟨rfl, rfl⟩, ⟨1, by decide, fun _ => rfl⟩, ?_, ?_⟩
  · intro s; simp only [exNet2]; decide
  · intro s t
    show ∀ k ∈ (exNet2.station 0).keys, ∀ l ∈ (exNet2.station 0).keys, k.id.val = l.id.val → k.runes = l.runes
    decide

theorem exNetSend_step {n : Net} {s : Nat} (h : UpToDate n s) : Relation.ReflTransGen (NetStep unicode15 UpToDate) n (exNetSend s n) := by
  unfold exNetSend
  split
  · rename_i he; exact .single (.send n s _ _ _ _ _ _ h rfl he)
  · exact .refl

theorem exNetReceive_step {n : Net} {s number : Nat} : Relation.ReflTransGen (NetStep unicode15 UpToDate) n (exNetReceive s number n) := by
  unfold exNetReceive
  split
  · rename_i hm
    split
    · rename_i hd; exact .single (.receive n s _ number _ _ _ _ hm rfl rfl hd)
    · exact .refl
  · exact .refl

/-- and these are events of a net in which stations read before they send -/
example : Relation.ReflTransGen (NetStep unicode15 UpToDate) exNet2 exNetTalk := by
  refine (exNetSend_step ?_).trans (exNetReceive_step.trans (exNetSend_step ?_))
  · intro number msg h; simp [exNet2] at h
  · intro number msg h _ _
    have h1 : (exNetReceive 1 0 (exNetSend 0 exNet2)).sent.length = 1 := by decide
    have h2 := (List.getElem?_eq_some_iff.1 h).1
    have h3 : number = 0 := by omega
    subst h3
    show (1, 0) ∈ _
    decide

end K431
