import Verif.SpecReuse
import Verif.ForgeLemmas

/-!
# Lemmas: two texts under one pad
-/

namespace K431
open Spec

theorem charAbove_letterFor {c : Int} (h : c ∈ firstTable) : IsLetter (letterFor c) ∧ charAbove (letterFor c) = c := by
  have : ∀ c ∈ firstTable, IsLetter (letterFor c) ∧ charAbove (letterFor c) = c := by decide
  exact this c h

theorem readOver_enciphered : ∀ {t t' r r' pad z z' : Runes}, (∀ c ∈ t', c ∈ firstTable) → Enciphered pad (t.map letterFor ++ r) z →
    Enciphered pad (t'.map letterFor ++ r') z' → (readOver t z z').take t'.length = t'.take t.length
  | [], t', _, _, _, z, z', _, _, _ => by simp [readOver]
  | _ :: _, [], _, _, _, z, z', _, _, _ => by simp
  | _ :: _, _ :: _, _, _, [], z, _, _, h, _ => by cases z <;> simp [Enciphered] at h
  | _ :: _, _ :: _, _, _, _ :: _, [], _, _, h, _ => by simp [Enciphered] at h
  | _ :: _, _ :: _, _, _, _ :: _, _ :: _, [], _, _, h => by simp [Enciphered] at h
  | a :: t, b :: t', r, r', p :: pad, z :: zs, z' :: zs', ht, h, h' => by
    obtain ⟨h1, h2⟩ := h
    obtain ⟨h1', h2'⟩ := h'
    obtain ⟨hl, hb⟩ := charAbove_letterFor (ht b (by simp))
    have ih := readOver_enciphered (fun c hc => ht c (by simp [hc])) h2 h2'
    have e : 65 + (pos (letterFor a) + pos z - pos z') % 26 = letterFor b := by
      revert h1 h1' hl
      simp only [Trigraph, IsLetter, pos]
      omega
    simp only [readOver, e, hb, List.length_cons, List.take_succ_cons, ih]

/-- the ciphertext of a text of the first line that takes one key -/
theorem onePad_letters {U : Unicode} (hU : U.Lawful) {noise : Nat → Rune} {f : Runes} {inst inst' : Inst} {m m' : Msg} (htext : ∀ c ∈ m.plainText, c ∈ firstTable)
    (henc : encipher U noise f inst m = (.ok (), inst', m')) (hone : ∀ k ∈ inst.keys, m.plainText.length + inst.groupSize + 2 ≤ k.runes.length) :
    ∃ i k n, getKey U inst.keys m'.keyId.val = some i ∧ inst.keys[i]? = some k ∧ Enciphered k.runes (m.plainText.map letterFor ++ List.replicate n 90) m'.cipherText := by
  obtain ⟨chunks, hT⟩ := encipher_T henc
  obtain ⟨inst1, m1, i, s, out, e⟩ := encipherT_ok hT
  have hpt : m1.plainText = m.plainText := by rw [e.enriched.plainText.1, (withId_fields f m).1]
  have hloop := e.loop
  rw [hpt] at hloop
  obtain ⟨ch, hch, hci⟩ := e.first_mem
  obtain ⟨k, hki, -⟩ := e.keys ch hch
  rw [hci] at hki
  have hroom := hone k (List.mem_of_getElem? hki)
  have hlenAt : keyLenAt inst1.keys i = k.runes.length := by
    obtain ⟨k', h1, h2⟩ := e.enriched.sameMat.symm.get hki
    rw [keyLenAt_eq h1, Key.mat_runes h2]
  obtain ⟨s2, h1, h2, h3, h4⟩ := encLoop_onePad hU (r := m1.recipients) m.plainText _ (loopOk_start inst1.keys i) rfl rfl htext (g := inst.groupSize) (by simp only [hlenAt, List.length_nil]; omega)
  rw [hloop] at h1
  simp only [Prod.mk.injEq, true_and] at h1
  subst h1
  have hciph := e.ciphered
  rw [cipherChunks_sameMat e.sameMat, e.hchunks, h3, h4, List.nil_append, cipherChunks_one] at hciph
  obtain ⟨k2, hk2, -, hcc⟩ := hciph
  dsimp only at hk2 hcc
  rw [hki] at hk2
  cases hk2
  have henc2 := cipherChunk_letters hcc
  rw [List.nil_append] at henc2
  have hfirst := e.first
  rw [getKey_congr U _ e.enriched.sameMat.ids] at hfirst
  rw [e.keyId_eq.1, e.keyId_eq.2.1]
  exact ⟨i, k, _, hfirst, hki, henc2⟩

theorem sendAll_two {U : Unicode} {noise : Nat → Rune} {f : Runes} {inst : Inst} {m m' : Msg} {sent : List Msg} (h : sendAll U noise f inst [m, m'] = some sent) :
    ∃ i1 r i2 r', encipher U noise f inst m = (.ok (), i1, r) ∧ encipher U noise f i1 m' = (.ok (), i2, r') ∧ sent = [r, r'] := by
  obtain ⟨i1, r, rest, h1, h2, rfl⟩ := sendAll_cons h
  obtain ⟨i2, r', rest', h3, h4, rfl⟩ := sendAll_cons h2
  simp only [sendAll, Option.some.injEq] at h4
  subst h4
  exact ⟨i1, r, i2, r', h1, h3, rfl⟩

theorem encipher_mat {U : Unicode} {noise : Nat → Rune} {f : Runes} {inst inst' : Inst} {m m' : Msg} (h : encipher U noise f inst m = (.ok (), inst', m')) :
    SameMat inst'.keys inst.keys ∧ inst'.groupSize = inst.groupSize := by
  obtain ⟨chunks, hT⟩ := encipher_T h
  obtain ⟨inst1, m1, i, s, out, e⟩ := encipherT_ok hT
  rw [e.keyId_eq.2.2]
  exact ⟨e.sameMat, by rw [e.hinst]; exact e.hg1⟩

theorem padsFor_finite (keys : List Key) : (PadsFor keys).Finite := by
  refine Set.finite_of_ncard_ne_zero ?_
  rw [PadsFor_card]
  exact Nat.ne_of_gt (Nat.pow_pos (by decide))

end K431
