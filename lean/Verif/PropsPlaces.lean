import Verif.PlacePointers
import Verif.Spec
import Verif.BasicLemmas

/-!
# C90 and C91: whose keys and messages are, and what pointers to them refer to
-/

namespace K431.Place

open K431.Mem

/-! ## C90: the instance of a key is the one it is stored in -/

/-- Whatever a program does (short of `SetInstance`), `GetInstance` of every key and message returns the instance whose `Keys` or `Messages` it is in. -/
def C90_Statement : Prop :=
  ∀ (U : Unicode), U.Lawful → ∀ ss : List Step, Unassigned ss → ∀ p, p < (World.empty.run U ss).next →
    (∀ c ∈ (World.empty.run U ss).keysOf p, c.owner = p) ∧ ∀ c ∈ (World.empty.run U ss).msgsOf p, c.owner = p

theorem owned_read {α : Type} {b : Bank α} {h : Hdr} {p : Nat} : (∀ c ∈ b.read h, c.owner = p) ↔ Owned b h p := by
  unfold Bank.read Owned
  simp

theorem run_good (U : Unicode) {w : World} {p : Nat} (g : Good w p) (ss : List Step) (hs : Unassigned ss) : Good (w.run U ss) p := by
  induction ss generalizing w with
  | nil => exact g
  | cons s ss ih => exact ih (step_good U g s (hs s (.head _))) (fun t ht => hs t (.tail _ ht))

/-- It is so for every instance made by `New`, whatever happens to it and to others: new keys and messages, imported and loaded ones, deletions,
exports, changes of settings.  Missing: instances returned by `ExportKeys` (see `C90_export` and `C90_violated`). -/
theorem C90_partial (U : Unicode) (ss : List Step) (set : Settings) (ss' : List Step) (hs : Unassigned ss') :
    let w := World.empty.run U ss
    let p := (w.new set).2
    let w' := (w.new set).1.run U ss'
    (∀ c ∈ w'.keysOf p, c.owner = p) ∧ ∀ c ∈ w'.msgsOf p, c.owner = p := by
  have g := run_good U (new_good (run_allFits U empty_allFits ss) set) ss' hs
  exact ⟨owned_read.mpr g.ownK, owned_read.mpr g.ownM⟩

/-- Loading puts it right for any instance. -/
theorem C90_load_partial (w : World) (p : Nat) (set : Settings) (ks : List KeyVal) (ms : List MsgVal) :
    (∀ c ∈ (w.load p set ks ms).keysOf p, c.owner = p) ∧ ∀ c ∈ (w.load p set ks ms).msgsOf p, c.owner = p := by
  have e : (w.load p set ks ms).stations p = ⟨set, (w.keys.fill (w.stations p).keys p ks).2, (w.msgs.fill (w.stations p).msgs p ms).2⟩ :=
    put_self w p ⟨set, (w.keys.fill (w.stations p).keys p ks).2, (w.msgs.fill (w.stations p).msgs p ms).2⟩
  unfold World.keysOf World.msgsOf
  rw [e]
  exact ⟨owned_read.mpr (fill_owned _ _ _ _), owned_read.mpr (fill_owned _ _ _ _)⟩

/-- What `ExportKeys` returns instead: exactly the selected keys, in order, each naming a struct that is neither the exporting instance nor the one
returned, and that keeps the settings as they were, so that the keys do not notice a change of the returned instance's settings. -/
theorem C90_export (U : Unicode) (ss : List Step) (p : Nat) (filter : KeyVal → Bool) (opts f : Settings → Settings)
    (hp : p < (World.empty.run U ss).next) :
    let w := World.empty.run U ss
    let e := w.export p filter opts
    (e.1.keysOf e.2).map Cell.val = ((w.keysOf p).map Cell.val).filter filter ∧
      (e.1.stations e.2).set = opts (w.stations p).set ∧
      ∀ c ∈ e.1.keysOf e.2, c.owner ≠ e.2 ∧ c.owner ≠ p ∧
        ((e.1.configure e.2 f).stations c.owner).set = opts (w.stations p).set := by
  intro w e
  obtain ⟨-, -, -, -, -, h6⟩ := exportLoop_spec filter w.next (w.keysOf p) (w.keys.make (w.stations p).keys.len).1
    (w.keys.make (w.stations p).keys.len).2 (by rw [World.keysOf, read_length]; exact Nat.le_of_eq (Nat.zero_add _))
    ⟨Nat.zero_le _, Nat.le_refl _⟩
  have hk : e.1.keysOf e.2 = ((w.keysOf p).filter (fun c => filter c.val)).map (fun c => ⟨c.val, w.next⟩) := by
    have : e.1.keysOf e.2 = (exportLoop filter w.next (w.keys.make (w.stations p).keys.len).1 (w.keys.make (w.stations p).keys.len).2 (w.keysOf p)).1.read
        (exportLoop filter w.next (w.keys.make (w.stations p).keys.len).1 (w.keys.make (w.stations p).keys.len).2 (w.keysOf p)).2 := by
      simp [e, World.keysOf, World.export]
    rw [this, h6]
    simp [Bank.read, Bank.make]
  refine ⟨?_, by simp [e, World.export], fun c hc => ?_⟩
  · rw [hk, List.map_map, List.filter_map]
    rfl
  · rw [hk] at hc
    obtain ⟨c', -, rfl⟩ := List.mem_map.mp hc
    refine ⟨?_, ?_, ?_⟩
    · show w.next ≠ w.next + 1
      omega
    · show w.next ≠ p
      have : p < w.next := hp
      omega
    · simp [e, World.export, World.configure, World.put]

/-- settings of a station -/
def exSet : Settings := ⟨Spec.lit "SA6MWA", 5, 110, 30⟩
/-- an unused key -/
def exKeyNamed (s : String) : KeyVal := ⟨Spec.lit s, Spec.lit "ABCDE", [], 0, 0, false, false, []⟩
/-- A station with one key; all keys are exported. -/
def exExported : List Step := [.new exSet, .newKey 0 (exKeyNamed "AAAAA") 0, .export 0 (fun _ => true) id]

/-- The exported instance (address 2) holds a key that names the struct at address 1. -/
theorem C90_violated : ¬ C90_Statement := by
  intro h
  have := (h unicode15 unicode15_lawful exExported (by simp [Unassigned, exExported]) 2 (by decide +kernel)).1
  have hc : ((World.empty.run unicode15 exExported).keysOf 2).map Cell.owner = [1] := by decide +kernel
  have hm : (1 : Nat) ∈ ((World.empty.run unicode15 exExported).keysOf 2).map Cell.owner := by rw [hc]; exact .head _
  obtain ⟨c, hc', ho⟩ := List.mem_map.mp hm
  have := this c hc'
  omega

/-- Not vacuous: a station with keys of its own and an imported one, one deleted, that has exported some. -/
example : ((World.empty.run unicode15 [.new exSet, .newKey 0 (exKeyNamed "AAAAA") 0, .addKey 0 (exKeyNamed "BBBBB") 0,
    .newKey 0 (exKeyNamed "CCCCC") 0, .export 0 (fun _ => true) id, .deleteKey 0 (Spec.lit "AAAAA") (exKeyNamed "")]).keysOf 0).map
      (fun c => (c.val.id, c.owner)) = [(Spec.lit "CCCCC", 0), (Spec.lit "BBBBB", 0)] := by decide +kernel

/-- Not vacuous: changing the call-sign of the exported instance is not seen by its keys. -/
example : let w := (World.empty.run unicode15 exExported).configure 2 (fun s => { s with callSign := Spec.lit "SM0XYZ" })
    (w.stations 2).set.callSign = Spec.lit "SM0XYZ" ∧ (w.keysOf 2).map (fun c => (w.stations c.owner).set.callSign) = [Spec.lit "SA6MWA"] := by
  decide +kernel

/-! ## C91: a pointer to a key or message refers to the stored one -/

/-- The pointer `GetKey` returned is what it returns later on, as long as the key is there; and what is assigned through the pointers `NewKey` and
`NewTextMessage` return is found in the store. -/
def C91_Statement : Prop :=
  ∀ (U : Unicode), U.Lawful → ∀ (ss : List Step) (p : Nat), p < (World.empty.run U ss).next →
    let w := World.empty.run U ss
    (∀ (ss' : List Step) (id : Runes) (a : Nat), (∀ s ∈ ss', s.Plain) → Distinct (w.run U ss') p → w.getKey U p id = some a →
        ((w.run U ss').getKey U p id).isSome → (w.run U ss').getKey U p id = some a) ∧
      (∀ (v : KeyVal) (room : Nat) (f : KeyVal → KeyVal),
        ⟨f v, p⟩ ∈ ((w.newKey p v room).1.writeKey (w.newKey p v room).2 f).keysOf p) ∧
      ∀ (v : MsgVal) (room : Nat) (f : MsgVal → MsgVal),
        ⟨f v, p⟩ ∈ ((w.newMessage p v room).1.writeMsg (w.newMessage p v room).2 f).msgsOf p

/-- The pointer returned by `GetKey` is the pointer to the stored key, and what it is assigned is found in the store, after any steps that spare it
(`Step.Spares`): no append beyond the capacity, and no deletion of a key while the key pointed to is the last.  The instance is one made by `New`. -/
theorem C91_partial (U : Unicode) (ss : List Step) (set : Settings) (ss' ss'' : List Step) (id : Runes) (a : Nat) :
    let w0 := World.empty.run U ss
    let p := (w0.new set).2
    let w := (w0.new set).1.run U ss'
    let w' := w.run U ss''
    Unassigned ss' → w.getKey U p id = some a → Spared U p a w ss'' → Distinct w' p →
      w'.getKey U p id = some a ∧ w'.keys.cells a ∈ w'.keysOf p ∧
        ∀ f, (w'.writeKey a f).keysOf p = (w'.keysOf p).map (fun c => if goStr c.val.id = lookupName U id then { c with val := f c.val } else c) := by
  intro w0 p w w' hu hg hs hd
  have g : Alone w p := (run_good U (new_good (run_allFits U empty_allFits ss) set) ss' hu).alone
  obtain ⟨x, hat, hx⟩ := getKey_at U hg
  obtain ⟨g', hat'⟩ := run_at U g hat ss'' hs
  refine ⟨at_getKey U hat' hx hd, ?_, fun f => ?_⟩
  · obtain ⟨i, hi, ha, -⟩ := hat'
    unfold World.keysOf Bank.read
    exact List.mem_map.mpr ⟨i, List.mem_range.mpr hi, by rw [ha]⟩
  · obtain ⟨i, hi, ha, hid⟩ := hat'
    show (w'.keys.put a _).read _ = (w'.keys.read _).map _
    unfold Bank.read
    rw [List.map_map]
    refine List.map_congr_left (fun j hj => ?_)
    have hj := List.mem_range.mp hj
    simp only [Function.comp_apply, Bank.put, show (w'.writeKey a f).stations = w'.stations from rfl]
    by_cases e : (w'.stations p).keys.base + j = a
    · rw [if_pos e, e, if_pos (by rw [hid, hx])]
    · rw [if_neg e, if_neg]
      intro hj'
      apply e
      rw [ha]
      congr 1
      have hj2 : j < (w'.keysOf p).length := by rw [World.keysOf, read_length]; exact hj
      have hi2 : i < (w'.keysOf p).length := by rw [World.keysOf, read_length]; exact hi
      refine (List.getElem_inj (h₀ := by simpa using hj2) (h₁ := by simpa using hi2) hd).mp ?_
      simp only [List.getElem_map, World.keysOf, Bank.read, List.getElem_range]
      rw [hj', ← ha, hid, hx]

/-- What is assigned through the pointer `NewKey` returns never reaches a store: the stored key is a copy.  Whatever was done before and is done in between. -/
theorem C91_newKey (U : Unicode) (ss : List Step) (p : Nat) (v : KeyVal) (room : Nat) (ss' : List Step) (f : KeyVal → KeyVal) (q : Nat) :
    let r := (World.empty.run U ss).newKey p v room
    let w := r.1.run U ss'
    (r.1.keys.cells r.2).val = v ∧ (r.1.keysOf p).getLast? = some ⟨v, p⟩ ∧ (w.writeKey r.2 f).keysOf q = w.keysOf q := by
  have hf := run_allFits U empty_allFits ss
  have hf' := (newKey_change hf p v room).allFits hf
  have ho := newKey_outside hf p v room
  have ho' := run_outside U hf' ho ss'
  have hff := run_allFits U hf' ss'
  refine ⟨?_, ?_, put_outside _ _ (hff q).1.1 (ho'.2 q) _⟩
  · have c : Change (· = p) (World.empty.run U ss) { World.empty.run U ss with keys := ((World.empty.run U ss).keys.alloc ⟨v, p⟩).1 } :=
      ⟨Nat.le_refl _, fun _ _ => rfl, alloc_shift hf.keys _ _, Shift.none hf.msgs _⟩
    have d := (addKey_change (c.allFits hf) p v room).keys
    have h0 := alloc_has (World.empty.run U ss).keys ⟨v, p⟩ hf.keys
    have e := (d.outside h0.1 h0.2).2
    exact (congrArg Cell.val e).trans (by simp [Bank.alloc, Bank.put])
  · unfold World.keysOf
    have e : ∀ (w : World), ((w.addKey p v room).keys.read ((w.addKey p v room).stations p).keys).getLast? = some ⟨v, p⟩ := by
      intro w
      have : ((w.addKey p v room).stations p).keys = (w.keys.append (w.stations p).keys ⟨v, p⟩ room).2 := by simp [World.addKey, World.put]
      rw [this]
      show ((w.keys.append (w.stations p).keys ⟨v, p⟩ room).1.read _).getLast? = _
      unfold Bank.append
      split <;> simp [Bank.read, List.range_succ, Bank.put]
    exact e _

/-- The same for the pointer `NewTextMessage` returns. -/
theorem C91_newMessage (U : Unicode) (ss : List Step) (p : Nat) (v : MsgVal) (room : Nat) (ss' : List Step) (f : MsgVal → MsgVal) (q : Nat) :
    let r := (World.empty.run U ss).newMessage p v room
    let w := r.1.run U ss'
    (r.1.msgsOf p).getLast? = some ⟨v, p⟩ ∧ (w.writeMsg r.2 f).msgsOf q = w.msgsOf q := by
  have hf := run_allFits U empty_allFits ss
  have hf' := (newMessage_change hf p v room).allFits hf
  have ho' := run_outsideM U hf' (newMessage_outside hf p v room) ss'
  have hff := run_allFits U hf' ss'
  refine ⟨?_, put_outside _ _ (hff q).2.1 (ho'.2 q) _⟩
  unfold World.msgsOf
  generalize World.empty.run U ss = w
  have : ((w.newMessage p v room).1.stations p).msgs = ((w.msgs.alloc ⟨v, p⟩).1.append (w.stations p).msgs ⟨v, p⟩ room).2 := by
    simp [World.newMessage, World.put]
  rw [this]
  show (((w.msgs.alloc ⟨v, p⟩).1.append (w.stations p).msgs ⟨v, p⟩ room).1.read _).getLast? = _
  unfold Bank.append
  split <;> simp [Bank.read, List.range_succ, Bank.put]

/-- A station with two keys. -/
def exTwo : List Step := [.new exSet, .newKey 0 (exKeyNamed "AAAAA") 0, .newKey 0 (exKeyNamed "BBBBB") 0]

/-- `GetKey` of the second key, then the first is deleted: the pointer refers to a place that is no longer in use. -/
theorem C91_violated : ¬ C91_Statement := by
  intro h
  have := (h unicode15 unicode15_lawful exTwo 0 (by decide +kernel)).1 [.deleteKey 0 (Spec.lit "AAAAA") (exKeyNamed "")] (Spec.lit "BBBBB") 1
    (by simp [Step.Plain]) (by unfold Distinct; decide +kernel) (by decide +kernel) (by decide +kernel)
  revert this
  decide +kernel

/-- The other two parts fail as well: marking the new key used through the pointer `NewKey` returned leaves the stored key unused. -/
theorem C91_violated_newKey : ¬ ∀ (w : World) (v : KeyVal) (f : KeyVal → KeyVal), w = World.empty.run unicode15 exTwo →
    ⟨f v, 0⟩ ∈ ((w.newKey 0 v 0).1.writeKey (w.newKey 0 v 0).2 f).keysOf 0 := by
  intro h
  have h1 := h _ (exKeyNamed "CCCCC") (fun v => { v with used := true }) rfl
  have h2 := C91_newKey unicode15 exTwo 0 (exKeyNamed "CCCCC") 0 [] (fun v => { v with used := true }) 0
  dsimp only at h2
  rw [show ∀ w : World, w.run unicode15 [] = w from fun _ => rfl] at h2
  rw [h2.2.2] at h1
  have h3 : true ∈ ((((World.empty.run unicode15 exTwo).newKey 0 (exKeyNamed "CCCCC") 0).1.keysOf 0).map (fun c => c.val.used)) :=
    List.mem_map.mpr ⟨_, h1, rfl⟩
  revert h3
  decide +kernel

/-- Not vacuous: with three keys, the second stays where it is when the first is deleted and another is added. -/
example : let w := (World.empty.new exSet).1.run unicode15 [.newKey 0 (exKeyNamed "AAAAA") 0, .newKey 0 (exKeyNamed "BBBBB") 0, .newKey 0 (exKeyNamed "CCCCC") 0]
    ∃ a, w.getKey unicode15 0 (Spec.lit "bbbbb") = some a ∧
      Spared unicode15 0 a w [.deleteKey 0 (Spec.lit "AAAAA") (exKeyNamed ""), .newKey 0 (exKeyNamed "DDDDD") 0] := by
  refine ⟨1, by decide +kernel, ⟨fun _ i hi hf => ?_, fun _ => by decide +kernel, trivial⟩⟩
  have e : firstIdx (fun c : Cell KeyVal => equalRunesFold unicode15 (some c.val.id) (some (Spec.lit "AAAAA"))) 0
      (((World.empty.new exSet).1.run unicode15 [.newKey 0 (exKeyNamed "AAAAA") 0, .newKey 0 (exKeyNamed "BBBBB") 0, .newKey 0 (exKeyNamed "CCCCC") 0]).keysOf 0)
        = some 0 := by decide +kernel
  have := e.symm.trans hf
  cases this
  decide +kernel

end K431.Place
