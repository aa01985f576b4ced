import Verif.WipeTextLemmas
import Verif.PropsHeap
import Verif.PropsMessages

/-!
# C106: wiping and the text in the radiogram
-/

namespace K431.Mem
open Spec

/-- The cells holding the text of the message in any form: plaintext, ciphertext, key id, and the radiogram as entered. -/
def TextCell (m : HMsg) (a : Nat) : Prop := MsgCell m a ∨ m.radiogram.Has a

/-- `Message.Wipe`, which `DeleteMessage` calls as well. -/
def wipeMsg (crand : Bool) (src : Source) (m : HMsg) (h : Heap) : Heap := wipeTargets crand src (msgTargets m) h

/-- **C106**: once a message has been wiped nothing in memory depends on its text. -/
def C106_Statement : Prop :=
  ∀ (crand : Bool) (src : Source), (∀ n, src n ≠ none) → ∀ (m : HMsg) (h h' : Heap), AgreeOff (TextCell m) (fun _ => False) h h' →
    wipeMsg crand src m h = wipeMsg crand src m h'

/-- **C106**, what holds: after wiping nothing depends on the text but the cells of the radiogram, whatever the random source does.  So all is erased if the message has no radiogram. -/
theorem C106_partial (crand : Bool) (src : Source) {m : HMsg} {h h' : Heap} (e : AgreeOff (TextCell m) (fun _ => False) h h') :
    AgreeOff (fun a => m.radiogram.Has a ∧ ¬ MsgCell m a) (fun _ => False) (wipeMsg crand src m h) (wipeMsg crand src m h') ∧
    (m.radiogram.len = 0 → wipeMsg crand src m h = wipeMsg crand src m h') := by
  have a := (agree_targets crand src (msgTargets m) e).mono (R' := fun a => m.radiogram.Has a ∧ ¬ MsgCell m a) (B' := fun _ => False)
    (by
      rintro x ⟨h1 | h1, h2⟩
      · exact absurd (targetHas_msg.2 h1) h2
      · exact ⟨h1, fun h3 => h2 (targetHas_msg.2 h3)⟩) (fun _ h => h)
  refine ⟨a, fun hl => (a.mono (fun x hx => ?_) (fun _ h => h)).eq⟩
  unfold Slice.Has at hx
  omega

/-- **C106**, what is left of outgoing messages: for every message that `NewTextMessage` has enciphered, once it has been laid out in memory (no array of the radiogram being shared
with plaintext, ciphertext, key id or a key), the whole plaintext can still be read in the radiogram after `Message.Wipe`, after deleting it, and after `Wipe` of the instance. -/
theorem C106_left {U : Unicode} {noise : Nat → Rune} {E : RadioEnv} {f : Runes} {inst inst' : Inst} {args : List Runes} {t t' : Tape} {m : Msg}
    (hn : newTextMessageRun U noise E f inst args t = some ((.ok m, inst'), t')) (hm : isMyCall U inst m = true)
    (crand : Bool) (src : Source) (h : Heap) (k : HInst) (x : HMsg) (hv : (msgVal h x).radiogram = m.radiogram)
    (hk : ∀ a, x.radiogram.Has a → ¬ SecretRune h k a) (hx : ∀ a, x.radiogram.Has a → ¬ MsgCell x a) :
    m.plainText <:+: readRunes (wipeMsg crand src x h) x.radiogram ∧ m.plainText <:+: readRunes (wipe crand src h k).1 x.radiogram := by
  have hi := newRun_infix hn hm
  rw [← hv] at hi
  constructor
  · unfold wipeMsg
    rwa [readRunes_congr (h' := h) (fun a ha => wipeTargets_off (fun hh => hx a ha (targetHas_msg.1 hh)))]
  · rwa [readRunes_congr (h' := h) (fun a ha => (C41_frame crand src h k).1 a (hk a ha))]

/-- the radiogram `OP DE SM = HEJ`, and the plaintext in an array of its own -/
def exLeftHeap : Heap :=
  ⟨fun a => (lit "OP DE SM = HEJHEJ").getD a 0, fun _ => Slice.nil, fun _ => 0, fun _ => Slice.nil, 17, 0, 0, 0, 0⟩
/-- its fields -/
def exLeftMsg : HMsg := ⟨.nil, .nil, .nil, 0, .nil, ⟨14, 3⟩, .nil, ⟨0, 14⟩⟩

/-- non-vacuity: an outgoing message and a memory in which it is laid out, as `C106_left` assumes -/
example : ((exNew ["OP DE SM = HEJ"]).1.val?.map (fun m => (isMyCall unicode15 exStation m, m.radiogram, m.plainText)) =
      some (true, (msgVal exLeftHeap exLeftMsg).radiogram, (msgVal exLeftHeap exLeftMsg).plainText)) ∧
    (∀ a, exLeftMsg.radiogram.Has a → ¬ MsgCell exLeftMsg a ∧ ¬ SecretRune exLeftHeap { exInstance with keys := [], messages := [exLeftMsg] } a) := by
  have hd : ∀ a, exLeftMsg.radiogram.Has a → ¬ MsgCell exLeftMsg a := by
    intro a ha hc
    unfold MsgCell Slice.Has at hc
    unfold Slice.Has at ha
    simp only [exLeftMsg, Slice.nil] at ha hc
    omega
  refine ⟨by decide +kernel, fun a ha => ⟨hd a ha, ?_⟩⟩
  rintro (⟨y, hy, -⟩ | ⟨y, hy, hc⟩)
  · simp at hy
  · simp only [List.mem_singleton] at hy
    subst hy
    exact hd a ha hc

/-- a message to nobody: the radiogram `DE A X`, the plaintext `X`, the ciphertext `Q`, enciphered with the key `K` -/
def exTextHeap : Heap :=
  ⟨fun a => [68, 69, 32, 65, 32, 88, 88, 81, 75].getD a 0, fun _ => Slice.nil, fun _ => 0, fun _ => Slice.nil, 9, 0, 0, 0, 0⟩
/-- its fields -/
def exTextMsg : HMsg := ⟨.nil, .nil, ⟨3, 1⟩, 0, ⟨8, 1⟩, ⟨6, 1⟩, ⟨7, 1⟩, ⟨0, 6⟩⟩

/-- **C106** is violated: the radiogram stays in memory as it was, with the text. -/
theorem C106_violated : ¬ C106_Statement ∧
    readRunes (wipeMsg true (fun _ => some (fun _ => 66)) exTextMsg exTextHeap) exTextMsg.radiogram = lit "DE A X" ∧
    readRunes (wipeMsg true (fun _ => some (fun _ => 66)) exTextMsg exTextHeap) exTextMsg.plainText = lit "B" := by
  refine ⟨?_, by decide, by decide⟩
  intro hs
  have := hs true (fun _ => some (fun _ => 66)) (by simp) exTextMsg exTextHeap
    { exTextHeap with runes := fun a => [68, 69, 32, 65, 32, 89, 89, 81, 75].getD a 0 } (by
      refine ⟨?_, fun _ _ => rfl, rfl, rfl, rfl, rfl, rfl, rfl, rfl⟩
      intro a ha
      have h5 : a ≠ 5 := by rintro rfl; exact ha (Or.inr (by decide))
      have h6 : a ≠ 6 := by rintro rfl; exact ha (Or.inl (Or.inl (by decide)))
      show [68, 69, 32, 65, 32, 88, 88, 81, 75].getD a 0 = [68, 69, 32, 65, 32, 89, 89, 81, 75].getD a (0 : Int)
      rcases a with _ | _ | _ | _ | _ | _ | _ | a
      all_goals first
        | rfl
        | omega)
  have h2 := congrArg (fun h : Heap => h.runes 5) this
  exact absurd h2 (by decide)

end K431.Mem
