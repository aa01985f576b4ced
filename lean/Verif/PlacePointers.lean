import Verif.PlaceSteps
import Verif.SpecPlaces

/-!
# Lemmas about places: pointers to keys
-/

namespace K431.Place

open K431.Mem

/-- The station at `p` exists, and no other station's keys are in its array. -/
structure Alone (w : World) (p : Nat) : Prop where
  fits : AllFits w
  here : p < w.next
  keys : ∀ q, q ≠ p → Apart (w.stations p).keys (w.stations q).keys

theorem Good.alone {w : World} {p : Nat} (g : Good w p) : Alone w p := ⟨g.fits, g.here, g.keys⟩

/-- the address is that of an element of `Keys`, whose id is `x` -/
def At (w : World) (p a : Nat) (x : Runes) : Prop :=
  ∃ i, i < (w.stations p).keys.len ∧ a = (w.stations p).keys.base + i ∧ (w.keys.cells a).val.id = x

theorem At.has {w : World} {p a : Nat} {x : Runes} (h : At w p a x) (hf : AllFits w) : (w.stations p).keys.Has a ∧ a < w.keys.next := by
  obtain ⟨i, hi, rfl, -⟩ := h
  have := (hf p).1.1
  have := (hf p).1.2
  exact ⟨⟨Nat.le_add_right _ _, by omega⟩, by omega⟩

theorem about_one {w : World} {p : Nat} {s : Step} (hp : s.About w p) (here : p < w.next) : s.About w = (· = p) := by
  cases s with
  | new set => exact absurd (show p = w.next from hp) (Nat.ne_of_lt here)
  | «export» q filter opts => rcases (show p = w.next ∨ p = w.next + 1 from hp) with e | e <;> omega
  | writeKey b f => exact absurd hp id
  | writeMsg b f => exact absurd hp id
  | setInstance b q => exact absurd hp id
  | setMsgInstance b q => exact absurd hp id
  | _ => cases (show p = _ from hp); rfl

theorem step_alone (U : Unicode) {w : World} {p : Nat} (g : Alone w p) (s : Step) : Alone (w.step U s) p := by
  refine ⟨step_allFits U g.fits s, ?_, ?_⟩
  · by_cases hd : s.Direct
    · rw [(direct_frame U w s hd).2.1]; exact g.here
    · exact Nat.lt_of_lt_of_le g.here (step_change U g.fits s hd).next
  · by_cases hd : s.Direct
    · rw [(direct_frame U w s hd).1]; exact g.keys
    · have c := step_change U g.fits s hd
      by_cases hp : s.About w p
      · rw [about_one hp g.here] at c
        exact c.keys.self g.fits.keys g.keys
      · exact (c.keys.other g.fits.keys hp g.keys).2.2

theorem append_room_keep {α : Type} {b : Bank α} {h : Hdr} (hl : h.len < h.cap) (x : Cell α) (room : Nat) {a : Nat} (ha : a ≠ h.base + h.len) :
    (b.append h x room).1.cells a = b.cells a ∧ (b.append h x room).2 = { h with len := h.len + 1 } := by
  unfold Bank.append
  rw [if_pos hl]
  exact ⟨if_neg ha, rfl⟩

theorem addKey_at {w : World} {p a : Nat} {x : Runes} (h : At w p a x) (hl : (w.stations p).keys.len < (w.stations p).keys.cap) (v : KeyVal) (room : Nat) :
    At (w.addKey p v room) p a x := by
  obtain ⟨i, hi, ha, hx⟩ := h
  obtain ⟨h1, h2⟩ := append_room_keep (b := w.keys) hl ⟨v, p⟩ room (a := a) (by omega)
  have e : ((w.addKey p v room).stations p).keys = { (w.stations p).keys with len := (w.stations p).keys.len + 1 } := by
    rw [← h2]; exact congrArg Station.keys (put_self w p _)
  refine ⟨i, by rw [e]; exact Nat.lt_succ_of_lt hi, by rw [e]; exact ha, ?_⟩
  show ((w.keys.append (w.stations p).keys ⟨v, p⟩ room).1.cells a).val.id = x
  rw [h1]
  exact hx

theorem step_at (U : Unicode) {w : World} {p a : Nat} {x : Runes} (g : Alone w p) (h : At w p a x) (s : Step) (hs : s.Spares U w p a) :
    At (w.step U s) p a x := by
  by_cases hd : s.Direct
  · cases s with
    | writeKey b f =>
      obtain ⟨i, hi, ha, hx⟩ := h
      refine ⟨i, hi, ha, ?_⟩
      simp only [World.step, World.writeKey, Bank.put]
      split
      · rename_i e
        dsimp only
        rw [hs e.symm, ← e]; exact hx
      · exact hx
    | setInstance b q =>
      obtain ⟨i, hi, ha, hx⟩ := h
      refine ⟨i, hi, ha, ?_⟩
      simp only [World.step, World.setInstance, Bank.put]
      split
      · rename_i e
        dsimp only
        rw [← e]; exact hx
      · exact hx
    | writeMsg b f => exact h
    | setMsgInstance b q => exact h
    | _ => exact absurd hd id
  · by_cases hp : s.About w p
    · cases s with
      | new set => exact absurd hp (Nat.ne_of_lt g.here)
      | newKey q v room =>
        cases (show p = q from hp)
        obtain ⟨-, hlt⟩ := h.has g.fits
        obtain ⟨i, hi, ha, hx⟩ := h
        refine addKey_at (w := { w with keys := (w.keys.alloc ⟨v, p⟩).1 }) ⟨i, hi, ha, ?_⟩ (hs rfl) v room
        show (if a = w.keys.next then _ else w.keys.cells a).val.id = x
        rw [if_neg (by omega)]
        exact hx
      | addKey q v room => cases (show p = q from hp); exact addKey_at h (hs rfl) v room
      | newMessage q v room =>
        cases (show p = q from hp)
        obtain ⟨i, hi, ha, hx⟩ := h
        have e : ((w.newMessage p v room).1.stations p).keys = (w.stations p).keys := by
          simp [World.newMessage, World.put]
        exact ⟨i, by simp only [World.step]; rw [e]; exact hi, by simp only [World.step]; rw [e]; exact ha, hx⟩
      | deleteKey q id junk =>
        cases (show p = q from hp)
        simp only [World.step, World.deleteKey]
        split
        · exact h
        · rename_i k hk
          have hlt := firstIdx_lt hk
          rw [World.keysOf, read_length, Nat.zero_add] at hlt
          obtain ⟨h1, h2⟩ := hs rfl k hlt hk
          obtain ⟨i, hi, ha, hx⟩ := h
          refine ⟨i, ?_, ?_, ?_⟩
          · dsimp only
            rw [put_self]
            show i < (w.stations p).keys.len - 1
            omega
          · dsimp only
            rw [put_self]
            exact ha
          · simp only [Bank.remove, Bank.put]
            rw [if_neg h1, if_neg h1]
            exact hx
      | deleteMessage q id junk =>
        cases (show p = q from hp)
        simp only [World.step, World.deleteMessage]
        split
        · exact h
        · obtain ⟨i, hi, ha, hx⟩ := h
          refine ⟨i, ?_, ?_, hx⟩
          · dsimp only
            rw [put_self]
            exact hi
          · dsimp only
            rw [put_self]
            exact ha
      | configure q f =>
        cases (show p = q from hp)
        obtain ⟨i, hi, ha, hx⟩ := h
        refine ⟨i, ?_, ?_, hx⟩
        · simp only [World.step, World.configure, put_self]; exact hi
        · simp only [World.step, World.configure, put_self]; exact ha
      | load q set ks ms => exact absurd hp.symm hs
      | wipe q => exact absurd hp.symm hs
      | «export» q filter opts =>
        have := g.here
        rcases (show p = w.next ∨ p = w.next + 1 from hp) with e | e <;> omega
      | writeKey b f => exact absurd hp id
      | writeMsg b f => exact absurd hp id
      | setInstance b q => exact absurd hp id
      | setMsgInstance b q => exact absurd hp id
    · obtain ⟨h1, h2, -⟩ := (step_change U g.fits s hd).keys.other g.fits.keys hp g.keys
      have hh := (h.has g.fits).1
      obtain ⟨i, hi, ha, hx⟩ := h
      exact ⟨i, by rw [h1]; exact hi, by rw [h1]; exact ha, by rw [h2 a hh]; exact hx⟩

theorem run_at (U : Unicode) {w : World} {p a : Nat} {x : Runes} (g : Alone w p) (h : At w p a x) (ss : List Step) (hs : Spared U p a w ss) :
    Alone (w.run U ss) p ∧ At (w.run U ss) p a x := by
  induction ss generalizing w with
  | nil => exact ⟨g, h⟩
  | cons s ss ih => exact ih (step_alone U g s) (step_at U g h s hs.1) hs.2

theorem firstIdx_some {β : Type} {P : β → Bool} {l : List β} {k i : Nat} (h : firstIdx P k l = some i) :
    ∃ j, i = k + j ∧ ∃ x, l[j]? = some x ∧ P x = true := by
  induction l generalizing k with
  | nil => simp [firstIdx] at h
  | cons y ys ih =>
    unfold firstIdx at h
    split at h
    · rename_i hp; cases h; exact ⟨0, rfl, y, rfl, hp⟩
    · obtain ⟨j, hj, x, hx, hP⟩ := ih h
      exact ⟨j + 1, by omega, x, by simpa using hx, hP⟩

theorem firstIdx_unique {β : Type} {P : β → Bool} {l : List β} {k j : Nat} {x : β} (hj : l[j]? = some x) (hx : P x = true)
    (hu : ∀ j' y, l[j']? = some y → P y = true → j' = j) : firstIdx P k l = some (k + j) := by
  induction l generalizing k j with
  | nil => simp at hj
  | cons y ys ih =>
    unfold firstIdx
    split
    · rename_i hy
      have := hu 0 y rfl hy
      subst this
      rfl
    · rename_i hy
      cases j with
      | zero => simp only [List.getElem?_cons_zero, Option.some.injEq] at hj; subst hj; exact absurd hx hy
      | succ j =>
        rw [ih (k := k + 1) (j := j) (by simpa using hj) (fun j' z hz hP => by
          have := hu (j' + 1) z (by simpa using hz) hP
          omega)]
        congr 1
        omega

theorem read_get {α : Type} (b : Bank α) (h : Hdr) (i : Nat) : (b.read h)[i]? = if i < h.len then some (b.cells (h.base + i)) else none := by
  unfold Bank.read
  by_cases hi : i < h.len
  · rw [if_pos hi]; simp [hi]
  · rw [if_neg hi]; simp; omega

theorem getKey_at (U : Unicode) {w : World} {p a : Nat} {id : Runes} (h : w.getKey U p id = some a) :
    ∃ x, At w p a x ∧ lookupName U id = goStr x := by
  unfold World.getKey at h
  rw [Option.map_eq_some_iff] at h
  obtain ⟨i, hi, ha⟩ := h
  obtain ⟨j, hj, c, hc, hP⟩ := firstIdx_some hi
  rw [World.keysOf, read_get] at hc
  split at hc
  · rename_i hlt
    cases hc
    rw [Nat.zero_add] at hj
    subst hj
    subst ha
    exact ⟨_, ⟨i, hlt, rfl, rfl⟩, by simpa using hP⟩
  · cases hc

theorem at_getKey (U : Unicode) {w : World} {p a : Nat} {id x : Runes} (h : At w p a x) (hx : lookupName U id = goStr x)
    (hu : ((w.keysOf p).map (fun c => goStr c.val.id)).Nodup) : w.getKey U p id = some a := by
  obtain ⟨i, hi, ha, hid⟩ := h
  unfold World.getKey
  rw [firstIdx_unique (j := i) (x := w.keys.cells ((w.stations p).keys.base + i)) (by rw [World.keysOf, read_get, if_pos hi])
    (by rw [← ha, hid]; simpa using hx)]
  · simp [ha]
  · intro j y hy hP
    have hj : j < (w.keysOf p).length := (List.getElem?_eq_some_iff.mp hy).1
    have hi' : i < (w.keysOf p).length := by rw [World.keysOf, read_length]; exact hi
    have e1 : (w.keysOf p)[j] = y := (List.getElem?_eq_some_iff.mp hy).2
    have e2 : (w.keysOf p)[i] = w.keys.cells a := by
      have : (w.keysOf p)[i]? = some (w.keys.cells a) := by rw [World.keysOf, read_get, if_pos hi, ← ha]
      exact (List.getElem?_eq_some_iff.mp this).2
    refine (List.getElem_inj (h₀ := by simpa using hj) (h₁ := by simpa using hi') hu).mp ?_
    simp only [List.getElem_map, e1, e2, hid]
    rw [← hx]
    exact (of_decide_eq_true hP).symm

/-! ## Structs outside all arrays -/

/-- the address is in use, and no station's `Keys` has it -/
def Outside (w : World) (a : Nat) : Prop := a < w.keys.next ∧ ∀ q, ¬ (w.stations q).keys.Has a
/-- the address is in use, and no station's `Messages` has it -/
def OutsideM (w : World) (a : Nat) : Prop := a < w.msgs.next ∧ ∀ q, ¬ (w.stations q).msgs.Has a

theorem step_outside (U : Unicode) {w : World} (hf : AllFits w) {a : Nat} (h : Outside w a) (s : Step) : Outside (w.step U s) a := by
  by_cases hd : s.Direct
  · obtain ⟨h1, -, h3, -⟩ := direct_frame U w s hd
    exact ⟨by rw [h3]; exact h.1, by rw [h1]; exact h.2⟩
  · have c := (step_change U hf s hd).keys
    exact ⟨Nat.lt_of_lt_of_le h.1 c.next, (c.outside h.1 h.2).1⟩

theorem step_outsideM (U : Unicode) {w : World} (hf : AllFits w) {a : Nat} (h : OutsideM w a) (s : Step) : OutsideM (w.step U s) a := by
  by_cases hd : s.Direct
  · obtain ⟨h1, -, -, h4⟩ := direct_frame U w s hd
    exact ⟨by rw [h4]; exact h.1, by rw [h1]; exact h.2⟩
  · have c := (step_change U hf s hd).msgs
    exact ⟨Nat.lt_of_lt_of_le h.1 c.next, (c.outside h.1 h.2).1⟩

theorem run_outside (U : Unicode) {w : World} (hf : AllFits w) {a : Nat} (h : Outside w a) (ss : List Step) : Outside (w.run U ss) a := by
  induction ss generalizing w with
  | nil => exact h
  | cons s ss ih => exact ih (step_allFits U hf s) (step_outside U hf h s)

theorem run_outsideM (U : Unicode) {w : World} (hf : AllFits w) {a : Nat} (h : OutsideM w a) (ss : List Step) : OutsideM (w.run U ss) a := by
  induction ss generalizing w with
  | nil => exact h
  | cons s ss ih => exact ih (step_allFits U hf s) (step_outsideM U hf h s)

theorem alloc_has {α : Type} (b : Bank α) (x : Cell α) {h : Nat → Hdr} (hf : ∀ q, Fits b (h q)) :
    (b.alloc x).2 < (b.alloc x).1.next ∧ ∀ q, ¬ (h q).Has (b.alloc x).2 :=
  ⟨Nat.lt_succ_self _, fun q hh => by
    have := (hf q).2
    have h2 : b.next < _ := hh.2
    omega⟩

theorem newKey_outside {w : World} (hf : AllFits w) (p : Nat) (v : KeyVal) (room : Nat) : Outside (w.newKey p v room).1 (w.newKey p v room).2 := by
  have h0 := alloc_has w.keys ⟨v, p⟩ hf.keys
  have c : Change (· = p) w { w with keys := (w.keys.alloc ⟨v, p⟩).1 } :=
    ⟨Nat.le_refl _, fun _ _ => rfl, alloc_shift hf.keys _ _, Shift.none hf.msgs _⟩
  have d := (addKey_change (c.allFits hf) p v room).keys
  exact ⟨Nat.lt_of_lt_of_le h0.1 d.next, (d.outside h0.1 h0.2).1⟩

theorem newMessage_outside {w : World} (hf : AllFits w) (p : Nat) (v : MsgVal) (room : Nat) :
    OutsideM (w.newMessage p v room).1 (w.newMessage p v room).2 := by
  have h0 := alloc_has w.msgs ⟨v, p⟩ hf.msgs
  have c : Change (· = p) w { w with msgs := (w.msgs.alloc ⟨v, p⟩).1 } :=
    ⟨Nat.le_refl _, fun _ _ => rfl, Shift.none hf.keys _, alloc_shift hf.msgs _ _⟩
  have h' := c.allFits hf
  have d := (append_shift (b := (w.msgs.alloc ⟨v, p⟩).1) (h := fun q => (w.stations q).msgs) (p := p) (h' p).2 ⟨v, p⟩ room)
  rw [← put_msgs w p { w.stations p with msgs := ((w.msgs.alloc ⟨v, p⟩).1.append (w.stations p).msgs ⟨v, p⟩ room).2 }] at d
  exact ⟨Nat.lt_of_lt_of_le h0.1 d.next, (d.outside h0.1 h0.2).1⟩

theorem put_outside {α : Type} (b : Bank α) (h : Hdr) (hl : h.len ≤ h.cap) {a : Nat} (ha : ¬ h.Has a) (c : Cell α) : (b.put a c).read h = b.read h := by
  unfold Bank.read
  refine List.map_congr_left (fun i hi => ?_)
  have := List.mem_range.mp hi
  refine if_neg (fun e => ha ?_)
  exact ⟨by omega, by omega⟩

end K431.Place
