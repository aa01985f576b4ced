import Verif.HandoverLemmas

/-!
# C40: keys handed over by export and import work in both directions
-/

namespace K431
open Spec

/-- **C40**, handing over: the import succeeds, B's own keys stay as they are, and every exported key arrives. -/
theorem C40_arrives {C : Codec} (hC : C.Lawful) {U : Unicode} {A B : Krypto} {fA : Key → Bool} {E1 E2 : PwEnv} {W1 W2 : World} {disk : Disk} {file : List Nat}
    {ow : Bool} {r : SaveRun} {opts : List Opt} (h : Handover C U A B fA E1 W1 disk file ow r E2 W2 opts) (noise : Nat → Noise) (answer : Key → Option Bool)
    (hans : ∀ k, answer k ≠ none) :
    ∃ B' new, importFrom C E2 W2 U noise answer (fun _ => true) opts (r.disk disk) B = some (.ok (), new.length, B') ∧
      B'.inst.keys.Perm (B.inst.keys ++ new) ∧ List.Forall₂ (HandedOver U A.inst.callSign) (A.inst.keys.filter fA) new ∧
      B'.inst.messages = B.inst.messages ∧ B'.inst.groupSize = B.inst.groupSize ∧ B'.inst.callSign = B.inst.callSign := by
  obtain ⟨key, hk, hkl, hload⟩ := h.key
  have hrk : r.k.pfk = some key := by
    rcases save_cases h.saved with ⟨e, -⟩ | ⟨path, key', -, -, -, -, e, hkk⟩
    · exact absurd e h.written
    · subst e
      rw [saveWrite_k]
      have : (exportKeys fA [withPersistence file, withOverwrite ow] A).pfk = some key := by
        simp [exportKeys, withPersistence, withOverwrite, hk]
      rw [this] at hkk
      rcases hkk with e | e
      · exact e.symm
      · simp at e
  have hst := (C33_partial hC h.saved h.ok h.written h.room hrk hkl h.sizes.1 h.sizes.2.1 h.sizes.2.2.1 h.sizes.2.2.2).1
  obtain ⟨k2, hl, hsame⟩ := hst E2 W2 _ h.blank h.reads hload
  have hkeys : List.Forall₂ SameKey k2.inst.keys (A.inst.keys.filter fA) := by
    have := hsame.keys
    simpa [exportKeys, withPersistence, withOverwrite] using this
  have hcall : k2.inst.callSign = A.inst.callSign := hsame.callSign
  have hids : k2.inst.keys.map (fun k => k.id.val) = (A.inst.keys.filter fA).map (fun k => k.id.val) := by
    exact sameKeys_ids hkeys
  have hd : DistinctNames U (k2.inst.keys.map (fun k => k.id.val)) := by
    rw [hids]
    exact List.Pairwise.sublist (List.Sublist.map _ List.filter_sublist) h.distinct
  obtain ⟨f, g, new, keys, nx, e1, e2, e3, e4, e5, e6⟩ := C39_partial U noise ⟨B.overwriteKeys, B.interactive && W2.terminal, answer⟩ (fun _ => true)
    k2.inst.keys k2.inst.callSign B.inst h.store h.arrays hd (fun k _ => hans k)
  have hnot : ∀ x ∈ k2.inst.keys, ¬ InFold U x.id.val (B.inst.keys.map (fun k => k.id.val)) := by
    intro x hx
    obtain ⟨y, hy, hxy⟩ := forall₂_left hkeys x hx
    rw [hxy.id]
    obtain ⟨h1, h2⟩ := List.mem_filter.1 hy
    exact h.new y h1 h2
  have hacc : k2.inst.keys.filter (fun k => decide (Accepts U ⟨B.overwriteKeys, B.interactive && W2.terminal, answer⟩ (fun _ => true) B.inst.groupSize
      (B.inst.keys.map (fun k => k.id.val)) k)) = k2.inst.keys := by
    rw [List.filter_eq_self]
    intro x hx
    obtain ⟨y, hy, hxy⟩ := forall₂_left hkeys x hx
    refine decide_eq_true ⟨?_, rfl, fun hin => absurd hin (hnot x hx)⟩
    rw [hxy.id]; exact h.lengths y (List.mem_filter.1 hy).1
  have hrep : ∀ x ∈ B.inst.keys, ¬ InFold U x.id.val (k2.inst.keys.map (fun k => k.id.val)) := by
    rintro x hx ⟨b, hb, hs⟩
    obtain ⟨y, hy, rfl⟩ := List.mem_map.1 hb
    exact hnot y hy ⟨x.id.val, List.mem_map.2 ⟨x, hx, rfl⟩, hs.symm⟩
  simp only [hacc] at e1 e2 e3 e5 e6
  have hf : (B.inst.keys.filter (fun x => !decide (InFold U x.id.val (k2.inst.keys.map (fun k => k.id.val))))).map f = B.inst.keys := by
    rw [List.filter_eq_self.2 (by intro x hx; simp [hrep x hx])]
    conv => rhs; rw [← List.map_id B.inst.keys]
    refine List.map_congr_left (fun x _ => ?_)
    exact e5 x (fun y hy hr => absurd hr (hrep y hy))
  have hg : B.inst.messages.map (fun m => { m with keyId := g m.keyId }) = B.inst.messages := by
    conv => rhs; rw [← List.map_id B.inst.messages]
    refine List.map_congr_left (fun m _ => ?_)
    rw [e6 m.keyId (fun y hy hr => absurd hr (hrep y hy))]; rfl
  rw [hf] at e2
  rw [hg] at e1
  have hlen : k2.inst.keys.length = new.length := e3.length_eq
  have hnew : List.Forall₂ (HandedOver U A.inst.callSign) (A.inst.keys.filter fA) new := by
    refine forall₂_trans ?_ hkeys e3
    intro a b c h1 h2
    obtain ⟨q1, q2, q3, q4, q5, q6, q7⟩ := imported_of_same h1 h2
    rw [hcall] at q6 q7
    exact ⟨q1, q2, q3, q4, q5, q6, q7⟩
  obtain ⟨B', hB'⟩ : ∃ B' : Krypto, B' = { B with
      inst := { B.inst with keys := keys, nextAddr := nx }
      pfk := if (newIncoming U B opts).sharesPFK then B.pfk.map (wipeThrough W2.noise) else B.pfk
      salt := if (newIncoming U B opts).sharesSalt then B.salt.map (wipeThrough W2.noise) else B.salt } := ⟨_, rfl⟩
  refine ⟨B', new, ?_, by rw [hB']; exact e2, hnew, by rw [hB'], by rw [hB'], by rw [hB']⟩
  unfold importFrom
  dsimp only
  rw [hl]
  dsimp only
  rw [e1, hlen, hB']

/-- **C40.**  After the handover (ids are letters):
* whatever A, or any station whose keys fit for the message are among those handed over, enciphers, B deciphers to the original text;
* every unused key handed over (whose keepers do not name A already, in other case) can be selected by B for a message to A, so B finds a key;
* if B had no other key fit for a message to A, every message to A that B enciphers then is deciphered by A to the original text. -/
theorem C40_works {C : Codec} (hC : C.Lawful) {U : Unicode} (hU : U.Lawful) {A B : Krypto} {fA : Key → Bool} {E1 E2 : PwEnv} {W1 W2 : World} {disk : Disk}
    {file : List Nat} {ow : Bool} {r : SaveRun} {opts : List Opt} (h : Handover C U A B fA E1 W1 disk file ow r E2 W2 opts) (noise : Nat → Noise)
    (answer : Key → Option Bool) (hans : ∀ k, answer k ≠ none)
    (hlA : ∀ k ∈ A.inst.keys, ∀ c ∈ k.id.val, IsLetter c) (hlB : ∀ k ∈ B.inst.keys, ∀ c ∈ k.id.val, IsLetter c) :
    ∃ B' n, importFrom C E2 W2 U noise answer (fun _ => true) opts (r.disk disk) B = some (.ok (), n, B') ∧ n = (A.inst.keys.filter fA).length ∧
      (∀ (noise : Nat → Rune) (f f' : Runes) (inst inst' : Inst) (m m' msg : Msg), inst.groupSize = B.inst.groupSize → WellFormed inst.keys →
        (∀ c ∈ m.plainText, c ∈ alphabet) → m.keyId.val = [] →
        (∀ k ∈ inst.keys, Selectable inst.groupSize m.recipients k → Holds (A.inst.keys.filter fA) k.id.val k.runes) →
        encipher U noise f inst m = (.ok (), inst', m') → msg.keyId.val = m'.keyId.val → msg.cipherText = m'.cipherText →
        ∃ rcv' msg', decipher U f' B'.inst msg = (.ok (), rcv', msg') ∧ msg'.plainText = m.plainText) ∧
      (∀ k ∈ A.inst.keys, fA k = true → k.used = false → (∀ n ∈ k.names, SameFold U A.inst.callSign n → n = A.inst.callSign) →
        (∃ k' ∈ B'.inst.keys, k'.id.val = k.id.val ∧ k'.runes = k.runes ∧ Selectable B'.inst.groupSize [A.inst.callSign] k') ∧
        findKey U B'.inst.groupSize B'.inst.keys [A.inst.callSign] ≠ none) ∧
      ((∀ k ∈ B.inst.keys, ¬ Selectable B.inst.groupSize [A.inst.callSign] k) → A.inst.groupSize = B.inst.groupSize →
        ∀ (noise : Nat → Rune) (f f' : Runes) (inst' : Inst) (m m' msg : Msg), m.recipients = [A.inst.callSign] → (∀ c ∈ m.plainText, c ∈ alphabet) →
        m.keyId.val = [] → encipher U noise f B'.inst m = (.ok (), inst', m') → msg.keyId.val = m'.keyId.val → msg.cipherText = m'.cipherText →
        ∃ rcv' msg', decipher U f' A.inst msg = (.ok (), rcv', msg') ∧ msg'.plainText = m.plainText) := by
  obtain ⟨B', new, e1, e2, e3, e4, e5, e6⟩ := C40_arrives hC h noise answer hans
  have hwA : WellFormed A.inst.keys := ⟨nodup_of_distinctNames h.distinct, hlA⟩
  have hwB : WellFormed B'.inst.keys := by
    refine wellFormed_perm e2 ⟨?_, ?_⟩
    · rw [List.map_append, List.nodup_append]
      refine ⟨nodup_of_distinctNames h.store.distinct, ?_, ?_⟩
      · rw [handedOver_ids e3]
        exact (hwA.distinct.sublist (List.Sublist.map _ List.filter_sublist))
      · intro a ha b hb hab
        rw [handedOver_ids e3] at hb
        obtain ⟨k, hk, rfl⟩ := List.mem_map.1 hb
        obtain ⟨h1, h2⟩ := List.mem_filter.1 hk
        exact h.new k h1 h2 ⟨a, ha, by rw [hab]; rfl⟩
    · intro k hk
      rcases List.mem_append.1 hk with hk | hk
      · exact hlB k hk
      · obtain ⟨x, hx, hxk⟩ := forall₂_right e3 k hk
        rw [hxk.id]
        exact hlA x (List.mem_filter.1 hx).1
  have hsel : ∀ k ∈ A.inst.keys, fA k = true → k.used = false → (∀ n ∈ k.names, SameFold U A.inst.callSign n → n = A.inst.callSign) →
        ∃ k' ∈ B'.inst.keys, k'.id.val = k.id.val ∧ k'.runes = k.runes ∧ Selectable B'.inst.groupSize [A.inst.callSign] k' := by
    intro k hk hf hu hn
    obtain ⟨k', hk', hh⟩ := forall₂_left e3 k (List.mem_filter.2 ⟨hk, hf⟩)
    refine ⟨k', e2.mem_iff.2 (List.mem_append_right _ hk'), hh.id, hh.runes, hh.used.trans hu, ?_, ?_⟩
    · rw [hh.id, e5]; exact h.lengths k hk
    · unfold KeptBy
      rw [if_neg (by simp)]
      intro x hx
      obtain rfl : x = A.inst.callSign := by simpa using hx
      obtain ⟨b, hb, hs⟩ := hh.exporter
      have : b = A.inst.callSign := by
        rcases hh.names b hb with hb | hb
        · exact hn b hb hs
        · exact hb
      subst this
      obtain ⟨s, hs, e⟩ := List.mem_map.1 hb
      exact ⟨s, hs, e⟩
  refine ⟨B', new.length, e1, e3.length_eq.symm, ?_, ?_, ?_⟩
  · intro noise f f' inst inst' m m' msg hg hwf htext hauto hh henc hk hc
    refine round_of_selectable hU htext hwf hauto henc (by rw [e5, hg]) hwB ?_ f' msg hk hc
    intro k hk hs
    obtain ⟨x, hx, hi, hr⟩ := hh k hk hs
    obtain ⟨y, hy, hxy⟩ := forall₂_left e3 x hx
    exact ⟨y, e2.mem_iff.2 (List.mem_append_right _ hy), hxy.id.trans hi, hxy.runes.trans hr⟩
  · intro k hk hf hu hn
    obtain ⟨k', hk', hs⟩ := hsel k hk hf hu hn
    refine ⟨⟨k', hk', hs⟩, ?_⟩
    intro hnone
    exact (C18_key_selection U _ _ _).2.1 hnone k' hk' hs.2.2
  · intro hno hg noise f f' inst' m m' msg hrec htext hauto henc hk hc
    refine round_of_selectable hU htext hwB hauto henc (by rw [e5, hg]) hwA ?_ f' msg hk hc
    intro k hk hs
    rw [hrec, e5] at hs
    rcases List.mem_append.1 (e2.mem_iff.1 hk) with hk | hk
    · exact absurd hs (hno k hk)
    · obtain ⟨x, hx, hxk⟩ := forall₂_right e3 k hk
      exact ⟨x, (List.mem_filter.1 hx).1, hxk.id.symm, hxk.runes.symm⟩

/-- a key to hand over -/
def exHandKey : Key := ⟨⟨1, [65, 66, 67, 68, 69]⟩, List.replicate 350 66, [⟨2, [66, 66]⟩], 0, 1, false, false, []⟩
/-- the exporting station -/
def exHandA : Krypto := { exKrypto true [exHandKey] with inst := { (exKrypto true [exHandKey]).inst with nextAddr := 3 } }
/-- the importing station -/
def exHandB : Krypto := exKrypto true []

/-- non-vacuity of the situation of C40 -/
example (C : Codec) (E : PwEnv) : ∃ r, Handover C unicode15 exHandA exHandB (fun _ => true) E exWorld exDisk [1] false r E exWorld
    [.persistence [1], .pfk (some exPFK)] := by
  have hs : save C E exWorld exDisk (exportKeys (fun _ => true) [withPersistence [1], withOverwrite false] exHandA) =
      some (saveWrite C exWorld exPFK (exportKeys (fun _ => true) [withPersistence [1], withOverwrite false] exHandA)) := rfl
  refine ⟨_, ⟨exPFK, rfl, by decide, Or.inl rfl⟩, hs, rfl, ?_, rfl, ⟨by decide, by decide, by decide, by decide⟩, ⟨rfl, rfl, rfl, ?_, ?_⟩,
    ⟨by decide, rfl, rfl, rfl⟩, by decide, by decide, by decide, by decide, by decide⟩
  · rw [show (saveWrite C exWorld exPFK (exportKeys (fun _ => true) [withPersistence [1], withOverwrite false] exHandA)).contents =
      (List.range ((C.enc exPFK 0 (gobInst exHandA.inst)).length + 1)).map (C.enc exPFK 0 (gobInst exHandA.inst)).take from rfl]
    simp
  · intro x hx
    exact (List.mem_replicate.1 hx).2
  · intro x hx
    exact (List.mem_replicate.1 hx).2

end K431
