import Verif.SpecHandover
import Verif.PropsPersist
import Verif.PropsKeys
import Verif.PropsCipher

/-!
# Lemmas on handing keys over
-/

namespace K431
open Spec

/-- the keys of the file, with other addresses -/
theorem imported_of_same {U : Unicode} {own call : Runes} {k e k' : Key} (h : SameKey k e) (hi : Imported U own call k k') :
    k'.id.val = e.id.val ∧ k'.runes = e.runes ∧ k'.used = e.used ∧ k'.expires = e.expires ∧ k'.compromised = e.compromised ∧
    (∀ n ∈ k'.names, n ∈ e.names ∨ n = call) ∧ InFold U call k'.names := by
  have hs := hi.same
  have hn : k.names = e.names := h.keepers
  refine ⟨hi.id.trans h.id, ?_, ?_, ?_, ?_, ?_, hi.exporter⟩
  · rw [hs]; exact h.runes
  · rw [hs]; exact h.used
  · rw [hs]; exact h.expires
  · rw [hs]; exact h.compromised
  · intro n hn'; rw [← hn]; exact hi.only n hn'

theorem forall₂_trans {α β γ : Type} {R : α → β → Prop} {S : α → γ → Prop} {T : β → γ → Prop} (h : ∀ a b c, R a b → S a c → T b c) :
    ∀ {l : List α} {m : List β} {n : List γ}, List.Forall₂ R l m → List.Forall₂ S l n → List.Forall₂ T m n
  | _, _, _, .nil, .nil => .nil
  | _, _, _, .cons a as, .cons b bs => .cons (h _ _ _ a b) (forall₂_trans h as bs)

theorem sameKeys_ids : ∀ {l m : List Key}, List.Forall₂ SameKey l m → l.map (fun k => k.id.val) = m.map (fun k => k.id.val)
  | _, _, .nil => rfl
  | _, _, .cons a as => by simp [a.id, sameKeys_ids as]

theorem forall₂_left {α β : Type} {R : α → β → Prop} : ∀ {l : List α} {m : List β}, List.Forall₂ R l m → ∀ x ∈ l, ∃ y ∈ m, R x y
  | _, _, .nil, x, hx => by simp at hx
  | _, _, .cons a as, x, hx => by
    rcases List.mem_cons.1 hx with rfl | hx
    · exact ⟨_, by simp, a⟩
    · obtain ⟨y, hy, h⟩ := forall₂_left as x hx
      exact ⟨y, by simp [hy], h⟩

theorem forall₂_right {α β : Type} {R : α → β → Prop} : ∀ {l : List α} {m : List β}, List.Forall₂ R l m → ∀ y ∈ m, ∃ x ∈ l, R x y
  | _, _, .nil, x, hx => by simp at hx
  | _, _, .cons a as, x, hx => by
    rcases List.mem_cons.1 hx with rfl | hx
    · exact ⟨_, by simp, a⟩
    · obtain ⟨y, hy, h⟩ := forall₂_right as x hx
      exact ⟨y, by simp [hy], h⟩

/-- a station that holds all keys fit for the message deciphers it -/
theorem round_of_selectable {U : Unicode} (hU : U.Lawful) {noise : Nat → Rune} {f : Runes} {inst inst' : Inst} {m m' : Msg} (htext : ∀ c ∈ m.plainText, c ∈ alphabet)
    (hwf : WellFormed inst.keys) (hauto : m.keyId.val = []) (henc : encipher U noise f inst m = (.ok (), inst', m'))
    {rcv : Inst} (hg : rcv.groupSize = inst.groupSize) (hr : WellFormed rcv.keys)
    (hsel : ∀ k ∈ inst.keys, Selectable inst.groupSize m.recipients k → Holds rcv.keys k.id.val k.runes)
    (f' : Runes) (msg : Msg) (hk : msg.keyId.val = m'.keyId.val) (hc : msg.cipherText = m'.cipherText) :
    ∃ rcv' msg', decipher U f' rcv msg = (.ok (), rcv', msg') ∧ msg'.plainText = m.plainText := by
  obtain ⟨chunks, hT⟩ : ∃ chunks, encipherT U noise f inst m = (.ok chunks, inst', m') := by
    unfold encipher at henc
    rcases h : encipherT U noise f inst m with ⟨c | e | _, a, b⟩ <;> rw [h] at henc <;> simp at henc
    exact ⟨c, by rw [henc.1, henc.2]⟩
  obtain ⟨inst1, m1, i, s, out, e⟩ := encipherT_ok hT
  have hres : ∀ ch ∈ chunks, Resolves U inst.keys rcv.keys ch.key := by
    intro ch hch
    obtain ⟨k, hk, hel⟩ := (e.auto_flags hU hauto (hwf.distinguishable hU)).2.2 ch.key (List.mem_map.2 ⟨ch, hch, rfl⟩)
    obtain ⟨kr, h1, h2, h3⟩ := hsel k (List.mem_of_getElem? hk) ((eligible_iff _ _ _ _).1 hel)
    obtain ⟨j, hj⟩ := List.mem_iff_getElem?.1 h1
    exact ⟨k, j, kr, hk, by rw [← h2]; exact hr.getKey hU hj, hj, h3⟩
  obtain ⟨rcv', msg', h1, h2⟩ := C10_round_trip_general U hU noise f f' inst inst' m m' chunks hT rcv hg hres msg hk hc
  exact ⟨rcv', msg', h1, by rw [h2, recovered_supported htext]⟩

theorem wellFormed_perm {l m : List Key} (h : l.Perm m) (hm : WellFormed m) : WellFormed l :=
  ⟨(h.map _).nodup_iff.2 hm.distinct, fun k hk => hm.letters k (h.mem_iff.1 hk)⟩

theorem nodup_of_distinctNames {U : Unicode} {l : List Runes} (h : DistinctNames U l) : l.Nodup :=
  List.Pairwise.imp (fun h e => h (by rw [e]; rfl)) h

theorem handedOver_ids {U : Unicode} {call : Runes} : ∀ {l m : List Key}, List.Forall₂ (HandedOver U call) l m → m.map (fun k => k.id.val) = l.map (fun k => k.id.val)
  | _, _, .nil => rfl
  | _, _, .cons a as => by simp [a.id, handedOver_ids as]

end K431
