import Verif.TableLemmas

/-!
# C92: the summaries are tables whose columns line up
-/

namespace K431
open Spec

/-- **C92**, keys.  If any keys are selected, heading and lines are one table: there are widths such that the headings and the entries of each line
(id, keepers or Anonymous, dates, Yes or No, comment) stand in columns of these widths.  Ids are no longer than a group, a group has two letters or
more, and dates have at most twelve characters. -/
theorem C92_keys (date : Int → Runes) (filter : Key → Bool) (inst : Inst) (hd : ∀ t, (date t).length ≤ 12) (hg : 2 ≤ inst.groupSize)
    (hids : ∀ k ∈ inst.keys, k.id.val.length ≤ inst.groupSize) (hne : ∃ k ∈ inst.keys, filter k = true) :
    let s := summaryOfKeys date filter inst
    ∃ ws, InColumns ws keyHeads s.1 ∧ s.2.length = (inst.keys.filter filter).length ∧
      ∀ (i : Nat) k l, (inst.keys.filter filter)[i]? = some k → s.2[i]? = some l → InColumns ws (keyFields date k) l := by
  intro s
  generalize hkp : inst.keys.filter filter = kp
  have hpos : kp.length > 0 := by
    obtain ⟨k, hk, hf⟩ := hne
    rw [← hkp]
    exact List.length_pos_of_mem (List.mem_filter.mpr ⟨hk, hf⟩)
  obtain ⟨h1, h2, h3⟩ := keySizesLoop_spec kp (lenStr "KEEPERS") 0
  have h7 : lenStr "KEEPERS" = 7 := rfl
  rcases hS : keySizesLoop kp (lenStr "KEEPERS", 0) with ⟨A, B⟩
  rw [hS] at h1 h2 h3
  dsimp only at h1 h2 h3
  rw [h7] at h1
  obtain ⟨a, rfl⟩ : ∃ a : Nat, A = a := ⟨A.toNat, by omega⟩
  obtain ⟨b, rfl⟩ : ∃ b : Nat, B = b := ⟨B.toNat, by omega⟩
  have hsz : keySizes inst.groupSize kp = [(inst.groupSize : Int), (a : Int), 12, 12, 4, 11, (b : Int)] := by
    unfold keySizes
    rw [if_pos hpos, hS]
    rfl
  refine ⟨[inst.groupSize + 1, a + 1, 12 + 1, 12 + 1, 4 + 1, 11 + 1], ?_, ?_, ?_⟩
  · show InColumns _ _ (headerOf _ (keySizes inst.groupSize (inst.keys.filter filter)))
    rw [hkp, hsz]
    simp only [headerOf]
    refine head_column hg (head_column (s := "KEEPERS") ?_ (head_column (s := "CREATED") (n := 12) (by decide) (head_column (s := "EXPIRES") (n := 12) (by decide)
      (head_column (s := "USED") (n := 4) (by decide) (head_column (s := "COMPROMISED") (n := 11) (by decide) ⟨0, by simp⟩)))))
    show 7 ≤ a
    omega
  · show ((inst.keys.filter filter).map _).length = _
    rw [hkp, List.length_map]
  · intro i k l hk hl
    have hl' : (kp.map (keyLine date (keySizes inst.groupSize kp)))[i]? = some l := by
      rw [← hkp]; exact hl
    rw [List.getElem?_map, hk] at hl'
    simp only [Option.map_some, Option.some.injEq] at hl'
    have hmem : k ∈ kp := List.mem_of_getElem? hk
    have hmem' : k ∈ inst.keys := by rw [← hkp] at hmem; exact (List.mem_filter.mp hmem).1
    subst hl'
    rw [hsz]
    unfold keyLine
    simp only [List.getD_cons_zero, List.getD_cons_succ, List.append_assoc]
    have e : (if k.keepers.length > 0 then joinRunes (lit ",") k.names else lit "Anonymous") =
        if k.names = [] then lit "Anonymous" else commas (k.names.map goStr) := by
      rw [joinRunes_commas]
      have : k.names = [] ↔ ¬ k.keepers.length > 0 := by simp [Key.names]
      by_cases h0 : k.names = []
      · rw [if_pos h0, if_neg (this.mp h0)]
      · rw [if_neg h0, if_pos (by by_contra hc; exact h0 (this.mpr hc))]
    rw [e]
    have hk3 : keepersLen k ≤ a := by have := h3 k hmem; omega
    have hyes : ∀ (b : Bool) (n : Nat), 3 ≤ n → (yesNo b).length ≤ n := by
      intro b n hn
      cases b
      · show 2 ≤ n; omega
      · exact hn
    refine cut_column rfl (hids k hmem') (cut_column rfl hk3 (cut_column (n := 12) rfl (hd _) (cut_column (n := 12) rfl (hd _)
      (cut_column (n := 4) rfl (hyes _ _ (by decide)) (cut_column (n := 11) rfl (hyes _ _ (by decide)) ?_)))))
    exact ⟨_, withPadding_eq _ _⟩

/-- non-vacuity: two keys with an unequal number of keepers -/
example : let inst : Inst := { exInst [{ exKey 1 "AA" "Q" with keepers := [⟨7, lit "SM0AAA"⟩, ⟨8, lit "SM0BBB"⟩] }, exKey 2 "BB" "W"] with groupSize := 2 }
    2 ≤ inst.groupSize ∧ (∀ k ∈ inst.keys, k.id.val.length ≤ inst.groupSize) ∧ (∃ k ∈ inst.keys, !k.used) ∧
    summaryOfKeys (fun _ => lit "012345ZJAN23") (fun k => !k.used) inst =
      (lit "ID KEEPERS       CREATED      EXPIRES      USED COMPROMISED COMMENT",
       [lit "AA SM0AAA,SM0BBB 012345ZJAN23 012345ZJAN23 No   No           ",
        lit "BB Anonymous     012345ZJAN23 012345ZJAN23 No   No           "]) := by
  decide +kernel

/-- **C92**, messages: heading and lines are one table, for all messages with ids of up to four characters and dates of up to twelve. -/
def C92_Statement : Prop :=
  ∀ (U : Unicode), U.Lawful → ∀ (fresh : Nat → Runes) (date : Int → Runes) (digest : Msg → Runes) (filter : Msg → Bool)
    (inst inst' : Inst) (header : Runes) (lines : List Runes), (∀ t, (date t).length ≤ 12) →
    (∀ m ∈ inst.messages, m.id ≠ [] ∧ m.id.length ≤ 4) →
    summaryOfMessages U fresh date digest filter inst = .ok (inst', header, lines) →
    ∃ ws, InColumns ws msgHeads header ∧ lines.length = (selected filter inst.messages inst'.messages).length ∧
      ∀ (i : Nat) m l, (selected filter inst.messages inst'.messages)[i]? = some m → lines[i]? = some l → InColumns ws (msgFields date digest m) l

/-- It is so if no selected message lacks a sender, or one has a sender of three characters or more: for a missing sender `NIL` is printed, and the
column may be too narrow for that. -/
theorem C92_partial (U : Unicode) (fresh : Nat → Runes) (date : Int → Runes) (digest : Msg → Runes) (filter : Msg → Bool)
    (inst inst' : Inst) (header : Runes) (lines : List Runes) (hd : ∀ t, (date t).length ≤ 12)
    (hids : ∀ m ∈ inst.messages, m.id ≠ [] ∧ m.id.length ≤ 4)
    (h : summaryOfMessages U fresh date digest filter inst = .ok (inst', header, lines))
    (hnil : (∀ m ∈ selected filter inst.messages inst'.messages, m.from_ ≠ []) ∨
      ∃ m ∈ selected filter inst.messages inst'.messages, 3 ≤ m.from_.length) :
    ∃ ws, InColumns ws msgHeads header ∧ lines.length = (selected filter inst.messages inst'.messages).length ∧
      ∀ (i : Nat) m l, (selected filter inst.messages inst'.messages)[i]? = some m → lines[i]? = some l → InColumns ws (msgFields date digest m) l := by
  unfold summaryOfMessages at h
  rcases hs : scanMessages U fresh filter (List.range inst.messages.length) inst with ⟨i1, sel⟩ | e | _
  · rw [hs] at h
    simp only [Outcome.ok.injEq, Prod.mk.injEq] at h
    obtain ⟨rfl, hh, hl⟩ := h
    obtain ⟨hmid, hsel⟩ := scan_spec _ _ _ _ List.nodup_range (fun m hm => (hids m hm).1) hs
    have hlen : inst.messages.length = i1.messages.length := by
      have := congrArg List.length hmid
      simpa using this.symm
    have hmp : sel.filterMap (fun i => i1.messages[i]?) = selected filter inst.messages i1.messages := by
      rw [selected_eq filter _ _ hlen, hsel]
    rw [hmp] at hh hl
    generalize hmps : selected filter inst.messages i1.messages = mp at hh hl hnil
    have hid4 : ∀ m ∈ mp, m.id.length ≤ 4 := by
      intro m hm
      rw [← hmps] at hm
      obtain ⟨⟨x, y⟩, hp, rfl⟩ := List.mem_map.mp hm
      have hy : y ∈ i1.messages := (List.of_mem_zip (List.mem_filter.mp hp).1).2
      have : y.id ∈ inst.messages.map Msg.id := by rw [← hmid]; exact List.mem_map.mpr ⟨y, hy, rfl⟩
      obtain ⟨z, hz, he⟩ := List.mem_map.mp this
      rw [← he]
      exact (hids z hz).2
    obtain ⟨h1, h2, h3⟩ := msgSizesLoop_spec mp (lenStr "TO") (lenStr "DE")
    have e2 : lenStr "TO" = 2 ∧ lenStr "DE" = 2 := ⟨rfl, rfl⟩
    rcases hS : msgSizesLoop mp (lenStr "TO", lenStr "DE") with ⟨A, B⟩
    rw [hS] at h1 h2 h3
    dsimp only at h1 h2 h3
    rw [e2.1] at h1
    rw [e2.2] at h2
    obtain ⟨a, rfl⟩ : ∃ a : Nat, A = a := ⟨A.toNat, by omega⟩
    obtain ⟨b, rfl⟩ : ∃ b : Nat, B = b := ⟨B.toNat, by omega⟩
    have hsz : msgSizes mp = [4, 12, (a : Int), (b : Int), 35] := by
      unfold msgSizes
      rw [hS]
      rfl
    refine ⟨[4 + 1, 12 + 1, a + 1, b + 1], ?_, by rw [← hl, List.length_map], fun i m l hm hl' => ?_⟩
    · rw [← hh, hsz]
      simp only [headerOf]
      refine head_column (s := "ID") (n := 4) (by decide) (head_column (s := "DTG") (n := 12) (by decide) (head_column (s := "TO") ?_
        (head_column (s := "DE") ?_ ⟨0, by simp⟩)))
      · show 2 ≤ a; omega
      · show 2 ≤ b; omega
    · rw [← hl, List.getElem?_map, hm] at hl'
      simp only [Option.map_some, Option.some.injEq] at hl'
      have hmem : m ∈ mp := List.mem_of_getElem? hm
      subst hl'
      rw [hsz]
      unfold msgLine
      simp only [List.getD_cons_zero, List.getD_cons_succ, List.append_assoc]
      have e : (if m.recipients.length > 0 then joinRunes (lit ",") m.recipients else lit "NIL") =
          if m.recipients = [] then lit "NIL" else commas (m.recipients.map goStr) := by
        rw [joinRunes_commas]
        by_cases h0 : m.recipients = []
        · rw [if_pos h0, if_neg (by simp [h0])]
        · rw [if_neg h0, if_pos (List.length_pos_of_ne_nil h0)]
      have e' : (if m.from_.length > 0 then m.from_ else lit "NIL") = if m.from_ = [] then lit "NIL" else m.from_ := by
        by_cases h0 : m.from_ = []
        · rw [if_pos h0, if_neg (by simp [h0])]
        · rw [if_neg h0, if_pos (List.length_pos_of_ne_nil h0)]
      rw [e, e']
      have hr : recipientsLen m ≤ a := by have := (h3 m hmem).1; omega
      have hf : (if m.from_ = [] then lit "NIL" else m.from_).length ≤ b := by
        split
        · rename_i h0
          rcases hnil with hn | ⟨m', hm', h3'⟩
          · exact absurd h0 (hn m hmem)
          · have := (h3 m' hm').2
            show 3 ≤ b
            omega
        · have := (h3 m hmem).2; omega
      refine cut_column (n := 4) rfl (hid4 m hmem) (cut_column (n := 12) rfl (hd _) (cut_column rfl hr (cut_column rfl hf ?_)))
      exact ⟨0, by simp⟩
  · rw [hs] at h; cases h
  · rw [hs] at h; cases h

/-- Not vacuous: two messages, one of them without sender. -/
example : let inst : Inst := { exInst [] with messages := [{ exMsg "HI" with id := lit "Ab12", from_ := lit "SM0AAA" }, { exMsg "YO" with id := lit "AB12" }] }
    summaryOfMessages unicode15 (fun _ => []) (fun _ => lit "012345ZJAN23") (fun m => m.plainText) (fun _ => true) inst =
      .ok (inst, lit "ID   DTG          TO  DE     DIGEST", [lit "Ab12 012345ZJAN23 NIL SM0AAA HI", lit "AB12 012345ZJAN23 NIL NIL    YO"]) := by
  decide +kernel

/-- A message without sender: `NIL` and the digest run together. -/
def exNoSender : Inst := { exInst [] with messages := [{ exMsg "HI" with id := lit "Ab12" }] }

theorem exNoSender_summary : summaryOfMessages unicode15 (fun _ => []) (fun _ => lit "012345ZJAN23") (fun m => m.plainText) (fun _ => true) exNoSender =
    .ok (exNoSender, lit "ID   DTG          TO  DE DIGEST", [lit "Ab12 012345ZJAN23 NIL NILHI"]) := by decide +kernel

theorem C92_violated : ¬ C92_Statement := by
  intro h
  obtain ⟨ws, -, -, h3⟩ := h unicode15 unicode15_lawful _ _ _ _ _ _ _ _ (by intro t; decide) (by decide +kernel) exNoSender_summary
  have h4 := h3 0 { exMsg "HI" with id := lit "Ab12" } _ (by rfl) (by rfl)
  have := inColumns_length _ _ _ h4
  revert this
  decide +kernel

end K431
