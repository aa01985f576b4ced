import Verif.DiagLemmas

/-! # C110: what the diagnostic form of keys and messages tells -/

namespace K431
open Spec

/-- C110, for keys: the diagnostic forms of two keys are the same only if the keys have the same contents.  (Pointers are written
alike when the keys belong to the same instance.) -/
theorem C110_partial (date : Int → Runes) (ptr : Runes) (hd : PlainDates date) (k k' : Key) (hk : PlainKey k) (hk' : PlainKey k')
    (h : k.goString date ptr = k'.goString date ptr) : k.Same k' := by
  obtain ⟨⟨i1, i2⟩, ⟨r1, r2⟩, n, c⟩ := hk
  obtain ⟨⟨i1', i2'⟩, ⟨r1', r2'⟩, n', c'⟩ := hk'
  unfold Key.goString at h
  rw [i2, i2', r2, r2', c, c'] at h
  have h := List.append_cancel_left h
  obtain ⟨e1, h⟩ := cut_sep (q := 32) rfl i1 i1' h
  obtain ⟨e2, h⟩ := cut_sep (q := 34) rfl r1 r1' h
  obtain ⟨e3, h⟩ := cut_sep (q := 93) rfl (join_plain_mem n) (join_plain_mem n') h
  obtain ⟨e4, h⟩ := cut_sep (q := 32) rfl (hd.1 _) (hd.1 _) h
  obtain ⟨e5, h⟩ := cut_sep (q := 32) rfl (hd.1 _) (hd.1 _) h
  obtain ⟨e6, h⟩ := cut_sep (q := 32) rfl (fmtBool_mem _) (fmtBool_mem _) h
  obtain ⟨e7, h⟩ := cut_sep (q := 32) rfl (fmtBool_mem _) (fmtBool_mem _) h
  have e8 := List.append_cancel_right h
  rw [join_plain n, join_plain n'] at e3
  exact ⟨e1, e2, commas_inj n n' e3, hd.2 _ _ e4, hd.2 _ _ e5, fmtBool_inj e6, fmtBool_inj e7, e8⟩

/-- C110, for messages: the diagnostic forms of two messages are the same only if the messages have the same contents, but for
the name of the message, which is not shown. -/
theorem C110_partial_messages (date : Int → Runes) (ptr binary : Runes) (hd : PlainDates date) (m m' : Msg) (hm : PlainMsg m)
    (hm' : PlainMsg m') (h : m.goString date ptr binary = m'.goString date ptr binary) : m.SameButId m' := by
  obtain ⟨n, ⟨f1, f2⟩, ⟨k1, k2⟩, ⟨p1, p2⟩, ⟨c1, c2⟩, r⟩ := hm
  obtain ⟨n', ⟨f1', f2'⟩, ⟨k1', k2'⟩, ⟨p1', p2'⟩, ⟨c1', c2'⟩, r'⟩ := hm'
  unfold Msg.goString at h
  rw [f2, f2', k2, k2', p2, p2', c2, c2', r, r'] at h
  have h := List.append_cancel_left h
  obtain ⟨e1, h⟩ := cut_sep (q := 93) rfl (join_plain_mem n) (join_plain_mem n') h
  obtain ⟨e2, h⟩ := cut_sep (q := 32) rfl f1 f1' h
  obtain ⟨e3, h⟩ := cut_sep (q := 32) rfl (hd.1 _) (hd.1 _) h
  obtain ⟨e4, h⟩ := cut_sep (q := 32) rfl k1 k1' h
  obtain ⟨e5, h⟩ := cut_sep (q := 34) rfl p1 p1' h
  have h := List.append_cancel_left (List.append_cancel_left h)
  obtain ⟨e6, h⟩ := cut_sep (q := 34) rfl c1 c1' h
  have e7 := List.append_cancel_right h
  rw [join_plain n, join_plain n'] at e1
  exact ⟨commas_inj n n' e1, e2, hd.2 _ _ e3, e4, e5, e6, e7⟩

/-- C110 fails for messages: two messages that differ in their names have one diagnostic form, whatever the rest. -/
theorem C110_violated (date : Int → Runes) (ptr binary : Runes) :
    ¬ ∀ m m' : Msg, PlainMsg m → PlainMsg m' → m.goString date ptr binary = m'.goString date ptr binary → m.Same m' := by
  intro h
  have := h ⟨[1], [], [], 0, ⟨0, []⟩, [], [], []⟩ ⟨[2], [], [], 0, ⟨0, []⟩, [], [], []⟩ (by unfold PlainMsg PlainNames PlainWord PlainWords; decide)
    (by unfold PlainMsg PlainNames PlainWord PlainWords; decide) rfl
  exact absurd this.1 (by decide)

/-- The diagnostic form is not fit for logs: it contains the letters of the key, whole and in order, … -/
theorem C110_letters (date : Int → Runes) (ptr : Runes) (k : Key) : goStr k.runes <:+: k.goString date ptr :=
  ⟨lit "Key{Id:" ++ (goStr k.id.val ++ lit " Runes:\""), _, by unfold Key.goString; simp only [List.append_assoc]; rfl⟩

/-- … and the text of the message, enciphered or not. -/
theorem C110_text (date : Int → Runes) (ptr binary : Runes) (m : Msg) : goStr m.plainText <:+: m.goString date ptr binary :=
  ⟨lit "Message{Recipients:[" ++ (joinRunes (lit ",") m.recipients ++ (lit "] From:" ++ (goStr m.from_ ++ (lit " DTG:" ++ (date m.dtg ++
    (lit " KeyId:" ++ (goStr m.keyId.val ++ lit " PlainText:\""))))))), _, by
    unfold Msg.goString; simp only [List.append_assoc]; rfl⟩

/-- The flags are shown under their names and with their values: a used key says `Used:true`, a key that is not says `Used:false`,
and so for `Compromised`. -/
theorem C110_flags (date : Int → Runes) (ptr : Runes) (k : Key) :
    ((if k.used = true then lit " Used:true Compromised:" else lit " Used:false Compromised:") ++
      (if k.compromised = true then lit "true Comment:" else lit "false Comment:")) <:+: k.goString date ptr := by
  refine ⟨lit "Key{Id:" ++ (goStr k.id.val ++ (lit " Runes:\"" ++ (goStr k.runes ++ (lit "\" Keepers:[" ++ (joinRunes (lit ",") k.names ++
    (lit "] Created:" ++ (date k.created ++ (lit " Expires:" ++ date k.expires)))))))),
    lit "\"" ++ (goStr k.comment ++ (lit "\" instance:" ++ (ptr ++ lit "}"))), ?_⟩
  unfold Key.goString fmtBool
  simp only [List.append_assoc]
  cases k.used <;> cases k.compromised <;> rfl

/-! ## Non-vacuity -/

/-- dates in strokes, for the examples -/
def exDates (a : Int) : Runes := if a < 0 then 45 :: List.replicate a.natAbs 73 else List.replicate a.natAbs 73

example : PlainDates exDates := by
  constructor
  · intro a; unfold exDates; split <;> simp
  · intro a b h
    unfold exDates at h
    split at h <;> split at h
    · have := congrArg List.length h; simp at this; omega
    · exfalso
      have : (45 : Int) ∈ List.replicate b.natAbs 73 := h ▸ List.mem_cons_self
      simp at this
    · exfalso
      have : (45 : Int) ∈ List.replicate a.natAbs 73 := h ▸ List.mem_cons_self
      simp at this
    · have := congrArg List.length h; simp at this; omega

/-- a key with keepers and a comment that contains a quotation mark -/
def exDiagKey : Key := ⟨⟨0, lit "ABCDE"⟩, lit "QWERT", [⟨1, lit "SA6MWA"⟩, ⟨2, lit "SM6ABC"⟩], 1, 2, true, false, lit "a \"b\""⟩

example : PlainKey exDiagKey := by unfold PlainKey PlainWord PlainWords PlainNames; decide

example : exDiagKey.goString exDates (lit "0x1") =
    lit "Key{Id:ABCDE Runes:\"QWERT\" Keepers:[SA6MWA,SM6ABC] Created:I Expires:II Used:true Compromised:false Comment:\"a \"b\"\" instance:0x1}" := by
  decide +kernel

/-- a message -/
def exDiagMsg : Msg := ⟨lit "ID", [lit "SM6ABC"], lit "SA6MWA", 1, ⟨0, lit "ABCDE"⟩, lit "HEJ PÅ", lit "ABCDE QWERT", lit "\"ANY\""⟩

example : PlainMsg exDiagMsg := by unfold PlainMsg PlainWord PlainWords PlainNames; decide

example : exDiagMsg.goString exDates (lit "0x1") (lit "\"\"") =
    lit "Message{Recipients:[SM6ABC] From:SA6MWA DTG:I KeyId:ABCDE PlainText:\"HEJ PÅ\" Binary:\"\" CipherText:\"ABCDE QWERT\" Radiogram:\"\"ANY\"\" instance:0x1}" := by
  decide +kernel

end K431
