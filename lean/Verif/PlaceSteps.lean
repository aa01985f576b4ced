import Verif.PlaceLemmas

/-!
# Lemmas about places: the steps of a program
-/

namespace K431.Place

open K431.Mem

/-- all slices lie within the memory in use -/
def AllFits (w : World) : Prop := ∀ q, Fits w.keys (w.stations q).keys ∧ Fits w.msgs (w.stations q).msgs

/-- Only the stations in `S` change, and nothing is written but into their arrays and new memory. -/
structure Change (S : Nat → Prop) (w w' : World) : Prop where
  next : w.next ≤ w'.next
  same : ∀ q, ¬ S q → w'.stations q = w.stations q
  keys : Shift S w.keys w'.keys (fun q => (w.stations q).keys) (fun q => (w'.stations q).keys)
  msgs : Shift S w.msgs w'.msgs (fun q => (w.stations q).msgs) (fun q => (w'.stations q).msgs)

/-- the station(s) a step is about -/
def Step.About (w : World) : Step → Nat → Prop
  | .new _ => (· = w.next)
  | .newKey p _ _ => (· = p)
  | .addKey p _ _ => (· = p)
  | .newMessage p _ _ => (· = p)
  | .deleteKey p _ _ => (· = p)
  | .deleteMessage p _ _ => (· = p)
  | .configure p _ => (· = p)
  | .load p _ _ _ => (· = p)
  | .wipe p => (· = p)
  | .export _ _ _ => fun q => q = w.next ∨ q = w.next + 1
  | _ => fun _ => False

/-- the step writes through a pointer -/
def Step.Direct : Step → Prop
  | .writeKey _ _ | .writeMsg _ _ | .setInstance _ _ | .setMsgInstance _ _ => True
  | _ => False

theorem AllFits.keys {w : World} (h : AllFits w) : ∀ q, Fits w.keys ((fun q => (w.stations q).keys) q) := fun q => (h q).1
theorem AllFits.msgs {w : World} (h : AllFits w) : ∀ q, Fits w.msgs ((fun q => (w.stations q).msgs) q) := fun q => (h q).2

theorem Change.allFits {S : Nat → Prop} {w w' : World} (c : Change S w w') (h : AllFits w) : AllFits w' :=
  fun q => ⟨c.keys.allFits h.keys q, c.msgs.allFits h.msgs q⟩

theorem put_keys (w : World) (p : Nat) (s : Station) :
    (fun q => ((w.put p s).stations q).keys) = setHdr (fun q => (w.stations q).keys) p s.keys := by
  funext q
  unfold World.put setHdr
  dsimp only
  split <;> rfl

theorem put_msgs (w : World) (p : Nat) (s : Station) :
    (fun q => ((w.put p s).stations q).msgs) = setHdr (fun q => (w.stations q).msgs) p s.msgs := by
  funext q
  unfold World.put setHdr
  dsimp only
  split <;> rfl

theorem setHdr_id (h : Nat → Hdr) (p : Nat) : setHdr h p (h p) = h := by
  funext q
  unfold setHdr
  split
  · rename_i e; rw [e]
  · rfl

/-- A change of one station. -/
theorem change_one {w : World} {p : Nat} {s : Station} {ks : Bank KeyVal} {ms : Bank MsgVal} {n : Nat} (hn : w.next ≤ n)
    (hk : Shift (· = p) w.keys ks (fun q => (w.stations q).keys) (setHdr (fun q => (w.stations q).keys) p s.keys))
    (hm : Shift (· = p) w.msgs ms (fun q => (w.stations q).msgs) (setHdr (fun q => (w.stations q).msgs) p s.msgs)) :
    Change (· = p) w { w.put p s with keys := ks, msgs := ms, next := n } := by
  refine ⟨hn, fun q hq => if_neg hq, ?_, ?_⟩
  · rw [← put_keys] at hk; exact hk
  · rw [← put_msgs] at hm; exact hm

theorem addKey_change {w : World} (h : AllFits w) (p : Nat) (v : KeyVal) (room : Nat) : Change (· = p) w (w.addKey p v room) :=
  change_one (w := w) (n := w.next) (s := { w.stations p with keys := (w.keys.append (w.stations p).keys ⟨v, p⟩ room).2 })
    (Nat.le_refl _) (append_shift (h := fun q => (w.stations q).keys) (h p).1 ⟨v, p⟩ room)
    (by rw [show (fun q => (w.stations q).msgs) = fun q => (w.stations q).msgs from rfl]
        exact (setHdr_id (fun q => (w.stations q).msgs) p).symm ▸ Shift.none h.msgs _)

theorem Change.refl {w : World} (h : AllFits w) (S : Nat → Prop) : Change S w w :=
  ⟨Nat.le_refl _, fun _ _ => rfl, Shift.none h.keys S, Shift.none h.msgs S⟩

theorem Change.trans {S : Nat → Prop} {w w' w'' : World} (c : Change S w w') (d : Change S w' w'') : Change S w w'' :=
  ⟨Nat.le_trans c.next d.next, fun q hq => (d.same q hq).trans (c.same q hq), c.keys.trans d.keys, c.msgs.trans d.msgs⟩

theorem same_keys {w : World} (h : AllFits w) (p : Nat) :
    Shift (· = p) w.keys w.keys (fun q => (w.stations q).keys) (setHdr (fun q => (w.stations q).keys) p (w.stations p).keys) := by
  have := Shift.none h.keys (· = p)
  rw [← setHdr_id (fun q => (w.stations q).keys) p] at this
  rw [setHdr_id] at this ⊢
  exact this

theorem same_msgs {w : World} (h : AllFits w) (p : Nat) :
    Shift (· = p) w.msgs w.msgs (fun q => (w.stations q).msgs) (setHdr (fun q => (w.stations q).msgs) p (w.stations p).msgs) := by
  rw [setHdr_id]
  exact Shift.none h.msgs (· = p)

theorem newKey_change {w : World} (h : AllFits w) (p : Nat) (v : KeyVal) (room : Nat) : Change (· = p) w (w.newKey p v room).1 := by
  have c : Change (· = p) w { w with keys := (w.keys.alloc ⟨v, p⟩).1 } :=
    ⟨Nat.le_refl _, fun _ _ => rfl, alloc_shift h.keys _ _, Shift.none h.msgs _⟩
  exact c.trans (addKey_change (c.allFits h) p v room)

theorem newMessage_change {w : World} (h : AllFits w) (p : Nat) (v : MsgVal) (room : Nat) : Change (· = p) w (w.newMessage p v room).1 := by
  have c : Change (· = p) w { w with msgs := (w.msgs.alloc ⟨v, p⟩).1 } :=
    ⟨Nat.le_refl _, fun _ _ => rfl, Shift.none h.keys _, alloc_shift h.msgs _ _⟩
  refine c.trans ?_
  have h' := c.allFits h
  exact change_one (w := { w with msgs := (w.msgs.alloc ⟨v, p⟩).1 }) (n := w.next)
    (s := { w.stations p with msgs := ((w.msgs.alloc ⟨v, p⟩).1.append (w.stations p).msgs ⟨v, p⟩ room).2 })
    (Nat.le_refl _) (same_keys h' p) (append_shift (h := fun q => (w.stations q).msgs) (h' p).2 ⟨v, p⟩ room)

theorem firstIdx_lt {β : Type} {P : β → Bool} {l : List β} {k i : Nat} (h : firstIdx P k l = some i) : i < k + l.length := by
  induction l generalizing k with
  | nil => simp [firstIdx] at h
  | cons x xs ih =>
    unfold firstIdx at h
    split at h
    · cases h; simp
    · have := ih h; simp only [List.length_cons]; omega

theorem read_length {α : Type} (b : Bank α) (h : Hdr) : (b.read h).length = h.len := by simp [Bank.read]

theorem deleteKey_change (U : Unicode) {w : World} (h : AllFits w) (p : Nat) (id : Runes) (junk : KeyVal) :
    Change (· = p) w (w.deleteKey U p id junk) := by
  unfold World.deleteKey
  split
  · exact Change.refl h _
  · rename_i i hi
    have hlt := firstIdx_lt hi
    rw [World.keysOf, read_length, Nat.zero_add] at hlt
    exact change_one (w := w) (n := w.next) (s := { w.stations p with keys := (w.keys.remove (w.stations p).keys i junk).2 })
      (Nat.le_refl _) (remove_shift (h := fun q => (w.stations q).keys) (h p).1 hlt junk) (same_msgs h p)

theorem deleteMessage_change {w : World} (h : AllFits w) (p : Nat) (id : Runes) (junk : MsgVal) :
    Change (· = p) w (w.deleteMessage p id junk) := by
  unfold World.deleteMessage
  split
  · exact Change.refl h _
  · rename_i i hi
    have hlt := firstIdx_lt hi
    rw [World.msgsOf, read_length, Nat.zero_add] at hlt
    exact change_one (w := w) (n := w.next) (s := { w.stations p with msgs := (w.msgs.remove (w.stations p).msgs i junk).2 })
      (Nat.le_refl _) (same_keys h p) (remove_shift (h := fun q => (w.stations q).msgs) (h p).2 hlt junk)

theorem configure_change {w : World} (h : AllFits w) (p : Nat) (f : Settings → Settings) : Change (· = p) w (w.configure p f) :=
  change_one (w := w) (n := w.next) (s := { w.stations p with set := f (w.stations p).set }) (Nat.le_refl _) (same_keys h p) (same_msgs h p)

theorem load_change {w : World} (h : AllFits w) (p : Nat) (set : Settings) (ks : List KeyVal) (ms : List MsgVal) :
    Change (· = p) w (w.load p set ks ms) :=
  change_one (w := w) (n := w.next) (s := ⟨set, (w.keys.fill (w.stations p).keys p ks).2, (w.msgs.fill (w.stations p).msgs p ms).2⟩)
    (Nat.le_refl _) (fill_shift (h := fun q => (w.stations q).keys) (h p).1 ks) (fill_shift (h := fun q => (w.stations q).msgs) (h p).2 ms)

theorem wipe_change (w : World) (p : Nat) : Change (· = p) w (w.wipe p) :=
  change_one (w := w) (n := w.next) (s := { w.stations p with keys := ⟨0, 0, 0⟩, msgs := ⟨0, 0, 0⟩ })
    (Nat.le_refl _) nil_shift nil_shift

theorem new_change (w : World) (set : Settings) : Change (· = w.next) w (w.new set).1 :=
  change_one (w := w) (p := w.next) (n := w.next + 1) (s := ⟨set, (w.keys.make 50000).2, (w.msgs.make 10000).2⟩)
    (Nat.le_succ _) (make_shift 50000) (make_shift 10000)

theorem export_change {w : World} (p : Nat) (filter : KeyVal → Bool) (opts : Settings → Settings) :
    Change (fun q => q = w.next ∨ q = w.next + 1) w (w.export p filter opts).1 := by
  obtain ⟨h1, h2, h3, h4, h5, -⟩ := exportLoop_spec filter w.next (w.keysOf p) (w.keys.make (w.stations p).keys.len).1
    (w.keys.make (w.stations p).keys.len).2 (by rw [World.keysOf, read_length]; exact Nat.le_of_eq (Nat.zero_add _))
    ⟨Nat.zero_le _, Nat.le_refl _⟩
  have hd : ∀ q, q = w.next ∨ q = w.next + 1 → ((w.export p filter opts).1.stations q).keys =
      (exportLoop filter w.next (w.keys.make (w.stations p).keys.len).1 (w.keys.make (w.stations p).keys.len).2 (w.keysOf p)).2 ∧
      ((w.export p filter opts).1.stations q).msgs = (w.msgs.make 0).2 := by
    rintro q (rfl | rfl)
    · exact ⟨by simp [World.export], by simp [World.export]⟩
    · exact ⟨by simp [World.export], by simp [World.export]⟩
  have hs : ∀ q, ¬ (q = w.next ∨ q = w.next + 1) → (w.export p filter opts).1.stations q = w.stations q := by
    intro q hq
    rw [not_or] at hq
    simp [World.export, hq.1, hq.2]
  refine ⟨Nat.le_add_right _ _, hs, ⟨?_, fun q hq => by rw [hs q hq], fun q hq => ?_, fun q hq => ?_, fun j hj _ => ?_⟩,
    ⟨Nat.le_refl _, fun q hq => by rw [hs q hq], fun q hq => ?_, fun q hq => ?_, fun _ _ _ => rfl⟩⟩
  · show _ ≤ (exportLoop _ _ _ _ _).1.next
    rw [h1]
    exact Nat.le_add_right _ _
  · rw [(hd q hq).1]
    exact h4
  · rw [(hd q hq).1, h2]
    exact .inr (.inr (Nat.le_refl _))
  · have := h5 j (fun hh => absurd (Nat.lt_of_lt_of_le hj hh.1) (Nat.lt_irrefl _))
    exact this
  · rw [(hd q hq).2]
    exact ⟨Nat.zero_le _, Nat.le_refl _⟩
  · rw [(hd q hq).2]
    exact .inr (.inr (Nat.le_refl _))

/-- Every step but a write through a pointer changes only the station it is about. -/
theorem step_change (U : Unicode) {w : World} (h : AllFits w) (s : Step) (hd : ¬ s.Direct) : Change (s.About w) w (w.step U s) := by
  cases s with
  | new set => exact new_change w set
  | newKey p v room => exact newKey_change h p v room
  | addKey p v room => exact addKey_change h p v room
  | newMessage p v room => exact newMessage_change h p v room
  | deleteKey p id junk => exact deleteKey_change U h p id junk
  | deleteMessage p id junk => exact deleteMessage_change h p id junk
  | configure p f => exact configure_change h p f
  | load p set ks ms => exact load_change h p set ks ms
  | wipe p => exact wipe_change w p
  | «export» p filter opts => exact export_change p filter opts
  | writeKey a f => exact absurd trivial hd
  | writeMsg a f => exact absurd trivial hd
  | setInstance a q => exact absurd trivial hd
  | setMsgInstance a q => exact absurd trivial hd

/-- A write through a pointer moves nothing. -/
theorem direct_frame (U : Unicode) (w : World) (s : Step) (hd : s.Direct) :
    (w.step U s).stations = w.stations ∧ (w.step U s).next = w.next ∧ (w.step U s).keys.next = w.keys.next ∧ (w.step U s).msgs.next = w.msgs.next := by
  cases s <;> first | exact ⟨rfl, rfl, rfl, rfl⟩ | exact absurd hd id

theorem step_allFits (U : Unicode) {w : World} (h : AllFits w) (s : Step) : AllFits (w.step U s) := by
  by_cases hd : s.Direct
  · obtain ⟨h1, h2, h3, h4⟩ := direct_frame U w s hd
    intro q
    rw [h1]
    exact ⟨⟨(h q).1.1, by rw [h3]; exact (h q).1.2⟩, ⟨(h q).2.1, by rw [h4]; exact (h q).2.2⟩⟩
  · exact (step_change U h s hd).allFits h

theorem run_cons (U : Unicode) (w : World) (s : Step) (ss : List Step) : w.run U (s :: ss) = (w.step U s).run U ss := rfl

theorem run_allFits (U : Unicode) {w : World} (h : AllFits w) (ss : List Step) : AllFits (w.run U ss) := by
  induction ss generalizing w with
  | nil => exact h
  | cons s ss ih => exact ih (step_allFits U h s)

theorem empty_allFits : AllFits World.empty := fun _ => ⟨⟨Nat.le_refl _, Nat.le_refl _⟩, ⟨Nat.le_refl _, Nat.le_refl _⟩⟩

/-! ## Whose the keys and messages are -/

/-- The station at `p` exists, its arrays are its own, and all its keys and messages name it. -/
structure Good (w : World) (p : Nat) : Prop where
  fits : AllFits w
  here : p < w.next
  keys : ∀ q, q ≠ p → Apart (w.stations p).keys (w.stations q).keys
  msgs : ∀ q, q ≠ p → Apart (w.stations p).msgs (w.stations q).msgs
  ownK : Owned w.keys (w.stations p).keys p
  ownM : Owned w.msgs (w.stations p).msgs p

theorem Owned.congr {α : Type} {b b' : Bank α} {h : Hdr} {p : Nat} (ho : Owned b h p) (hl : h.len ≤ h.cap)
    (hk : ∀ j, h.Has j → b'.cells j = b.cells j) : Owned b' h p := by
  intro i hi
  rw [hk _ ⟨Nat.le_add_right _ _, by omega⟩]
  exact ho i hi

theorem Good.other {S : Nat → Prop} {w w' : World} {p : Nat} (g : Good w p) (c : Change S w w') (hp : ¬ S p) : Good w' p := by
  obtain ⟨h1, h2, h3⟩ := c.keys.other g.fits.keys hp g.keys
  obtain ⟨m1, m2, m3⟩ := c.msgs.other g.fits.msgs hp g.msgs
  refine ⟨c.allFits g.fits, Nat.lt_of_lt_of_le g.here c.next, h3, m3, ?_, ?_⟩
  · rw [h1]; exact g.ownK.congr (g.fits p).1.1 h2
  · rw [m1]; exact g.ownM.congr (g.fits p).2.1 m2

theorem Good.self {w w' : World} {p : Nat} (g : Good w p) (c : Change (· = p) w w') (hk : Owned w'.keys (w'.stations p).keys p)
    (hm : Owned w'.msgs (w'.stations p).msgs p) : Good w' p :=
  ⟨c.allFits g.fits, Nat.lt_of_lt_of_le g.here c.next, c.keys.self g.fits.keys g.keys, c.msgs.self g.fits.msgs g.msgs, hk, hm⟩

theorem append_owned {α : Type} {b : Bank α} {h : Hdr} {p : Nat} (ho : Owned b h p) (v : α) (room : Nat) :
    Owned (b.append h ⟨v, p⟩ room).1 (b.append h ⟨v, p⟩ room).2 p := by
  unfold Bank.append
  split
  · intro i hi
    dsimp only at hi ⊢
    unfold Bank.put
    dsimp only
    split
    · rfl
    · exact ho i (by omega)
  · intro i hi
    dsimp only at hi ⊢
    split
    · rfl
    · rename_i hne
      rw [if_pos ⟨by omega, by omega⟩]
      have := ho i (by omega)
      rw [show b.next + i - b.next = i by omega]
      exact this

theorem remove_owned {α : Type} {b : Bank α} {h : Hdr} {p i : Nat} (ho : Owned b h p) (hi : i < h.len) (junk : α) :
    Owned (b.remove h i junk).1 (b.remove h i junk).2 p := by
  intro j hj
  have hl := ho (h.len - 1) (by omega)
  have hi' := ho i hi
  have hj' : j < h.len := by
    have : j < h.len - 1 := hj
    omega
  have hjo := ho j hj'
  simp only [Bank.remove, Bank.put]
  split
  · split
    · exact hi'
    · exact hl
  · exact hjo

theorem fill_owned {α : Type} (b : Bank α) (h : Hdr) (p : Nat) (vs : List α) : Owned (b.fill h p vs).1 (b.fill h p vs).2 p := by
  unfold Bank.fill
  split
  · intro i hi
    dsimp only at hi ⊢
    rw [if_pos (Nat.le_add_right _ _), Nat.add_sub_cancel_left, List.getElem?_eq_getElem hi]
  · intro i hi
    dsimp only at hi ⊢
    rw [if_pos (Nat.le_add_right _ _), Nat.add_sub_cancel_left, List.getElem?_eq_getElem hi]

theorem put_self (w : World) (p : Nat) (s : Station) : (w.put p s).stations p = s := if_pos rfl

theorem addKey_good {w : World} {p : Nat} (g : Good w p) (v : KeyVal) (room : Nat) : Good (w.addKey p v room) p := by
  have e : (w.addKey p v room).stations p = { w.stations p with keys := (w.keys.append (w.stations p).keys ⟨v, p⟩ room).2 } := put_self w p _
  refine g.self (addKey_change g.fits p v room) ?_ ?_
  · rw [e]; exact append_owned g.ownK v room
  · rw [e]; exact g.ownM

theorem newKey_good {w : World} {p : Nat} (g : Good w p) (v : KeyVal) (room : Nat) : Good (w.newKey p v room).1 p := by
  have c : Change (fun _ => False) w { w with keys := (w.keys.alloc ⟨v, p⟩).1 } :=
    ⟨Nat.le_refl _, fun _ _ => rfl, alloc_shift g.fits.keys _ _, Shift.none g.fits.msgs _⟩
  exact addKey_good (g.other c id) v room

theorem newMessage_good {w : World} {p : Nat} (g : Good w p) (v : MsgVal) (room : Nat) : Good (w.newMessage p v room).1 p := by
  have c : Change (fun _ => False) w { w with msgs := (w.msgs.alloc ⟨v, p⟩).1 } :=
    ⟨Nat.le_refl _, fun _ _ => rfl, Shift.none g.fits.keys _, alloc_shift g.fits.msgs _ _⟩
  have g' := g.other c id
  have e : (w.newMessage p v room).1.stations p =
      { w.stations p with msgs := ((w.msgs.alloc ⟨v, p⟩).1.append (w.stations p).msgs ⟨v, p⟩ room).2 } := put_self w p _
  refine g.self (newMessage_change g.fits p v room) ?_ ?_
  · rw [e]; exact g.ownK
  · rw [e]; exact append_owned g'.ownM v room

theorem step_good (U : Unicode) {w : World} {p : Nat} (g : Good w p) (s : Step)
    (hs : (∀ a q, s ≠ .setInstance a q) ∧ ∀ a q, s ≠ .setMsgInstance a q) : Good (w.step U s) p := by
  by_cases hd : s.Direct
  · cases s with
    | writeKey a f =>
      refine ⟨step_allFits U g.fits (.writeKey a f), g.here, g.keys, g.msgs, fun i hi => ?_, g.ownM⟩
      have := g.ownK i hi
      simp only [World.step, World.writeKey, Bank.put]
      split
      · rename_i e; rw [e] at this; exact this
      · exact this
    | writeMsg a f =>
      refine ⟨step_allFits U g.fits (.writeMsg a f), g.here, g.keys, g.msgs, g.ownK, fun i hi => ?_⟩
      have := g.ownM i hi
      simp only [World.step, World.writeMsg, Bank.put]
      split
      · rename_i e; rw [e] at this; exact this
      · exact this
    | setInstance a q => exact absurd rfl (hs.1 a q)
    | setMsgInstance a q => exact absurd rfl (hs.2 a q)
    | _ => exact absurd hd id
  · by_cases hp : s.About w p
    · cases s with
      | new set => exact absurd hp (Nat.ne_of_lt g.here)
      | newKey q v room => cases (show p = q from hp); exact newKey_good g v room
      | addKey q v room => cases (show p = q from hp); exact addKey_good g v room
      | newMessage q v room => cases (show p = q from hp); exact newMessage_good g v room
      | deleteKey q id junk =>
        cases (show p = q from hp)
        refine g.self (deleteKey_change U g.fits p id junk) ?_ ?_
        · simp only [World.step, World.deleteKey]
          split
          · exact g.ownK
          · rename_i i hi
            have hlt := firstIdx_lt hi
            rw [World.keysOf, read_length, Nat.zero_add] at hlt
            dsimp only
            rw [put_self]
            exact remove_owned g.ownK hlt junk
        · simp only [World.step, World.deleteKey]
          split
          · exact g.ownM
          · dsimp only
            rw [put_self]
            exact g.ownM
      | deleteMessage q id junk =>
        cases (show p = q from hp)
        refine g.self (deleteMessage_change g.fits p id junk) ?_ ?_
        · simp only [World.step, World.deleteMessage]
          split
          · exact g.ownK
          · dsimp only
            rw [put_self]
            exact g.ownK
        · simp only [World.step, World.deleteMessage]
          split
          · exact g.ownM
          · rename_i i hi
            have hlt := firstIdx_lt hi
            rw [World.msgsOf, read_length, Nat.zero_add] at hlt
            dsimp only
            rw [put_self]
            exact remove_owned g.ownM hlt junk
      | configure q f =>
        cases (show p = q from hp)
        refine g.self (configure_change g.fits p f) ?_ ?_
        · simp only [World.step, World.configure, put_self]; exact g.ownK
        · simp only [World.step, World.configure, put_self]; exact g.ownM
      | load q set ks ms =>
        cases (show p = q from hp)
        refine g.self (load_change g.fits p set ks ms) ?_ ?_
        · simp only [World.step, World.load, put_self]; exact fill_owned _ _ _ _
        · simp only [World.step, World.load, put_self]; exact fill_owned _ _ _ _
      | wipe q =>
        cases (show p = q from hp)
        refine g.self (wipe_change w p) ?_ ?_
        · simp only [World.step, World.wipe, put_self]; exact fun i hi => absurd hi (Nat.not_lt_zero i)
        · simp only [World.step, World.wipe, put_self]; exact fun i hi => absurd hi (Nat.not_lt_zero i)
      | «export» q filter opts =>
        have := g.here
        rcases (show p = w.next ∨ p = w.next + 1 from hp) with e | e <;> omega
      | writeKey a f => exact absurd hp id
      | writeMsg a f => exact absurd hp id
      | setInstance a q => exact absurd hp id
      | setMsgInstance a q => exact absurd hp id
    · exact g.other (step_change U g.fits s hd) hp

theorem new_good {w : World} (h : AllFits w) (set : Settings) : Good (w.new set).1 w.next := by
  have c := new_change w set
  have e : (w.new set).1.stations w.next = ⟨set, (w.keys.make 50000).2, (w.msgs.make 10000).2⟩ := if_pos rfl
  refine ⟨c.allFits h, Nat.lt_succ_self _, fun q hq j hj hj' => ?_, fun q hq j hj hj' => ?_, ?_, ?_⟩
  · rw [e] at hj
    rw [c.same q hq] at hj'
    have := (h q).1.2
    have h1 : w.keys.next ≤ j := hj.1
    have h2 := hj'.2
    omega
  · rw [e] at hj
    rw [c.same q hq] at hj'
    have := (h q).2.2
    have h1 : w.msgs.next ≤ j := hj.1
    have h2 := hj'.2
    omega
  · rw [e]; exact fun i hi => absurd hi (Nat.not_lt_zero i)
  · rw [e]; exact fun i hi => absurd hi (Nat.not_lt_zero i)

end K431.Place
