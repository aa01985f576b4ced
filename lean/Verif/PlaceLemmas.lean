import Verif.Places
import Mathlib.Tactic.ByContra

/-!
# Lemmas about places: what a step leaves where it was
-/

namespace K431.Place

open K431.Mem

variable {α : Type}

/-- the address lies in the array of the slice -/
def Hdr.Has (h : Hdr) (j : Nat) : Prop := h.base ≤ j ∧ j < h.base + h.cap

/-- The slice is within its array, and the array within the memory in use. -/
def Fits (b : Bank α) (h : Hdr) : Prop := h.len ≤ h.cap ∧ h.base + h.cap ≤ b.next

/-- no address lies in both arrays -/
def Apart (g h : Hdr) : Prop := ∀ j, g.Has j → h.Has j → False

/-- every element's `instance` is the struct at `p` -/
def Owned (b : Bank α) (h : Hdr) (p : Nat) : Prop := ∀ i, i < h.len → (b.cells (h.base + i)).owner = p

/-- From memory `b` to `b'`: only the arrays of the slices in `S` are written to, and such a slice afterwards has its array or a new one. -/
structure Shift (S : Nat → Prop) (b b' : Bank α) (h h' : Nat → Hdr) : Prop where
  next : b.next ≤ b'.next
  same : ∀ q, ¬ S q → h' q = h q
  fits : ∀ q, S q → Fits b' (h' q)
  place : ∀ q, S q → h'  q = ⟨0, 0, 0⟩ ∨ ((h' q).base = (h q).base ∧ (h' q).cap = (h q).cap) ∨ b.next ≤ (h' q).base
  keep : ∀ j, j < b.next → (∀ q, S q → ¬ (h q).Has j) → b'.cells j = b.cells j

/-- nothing happens -/
theorem Shift.none {b : Bank α} {h : Nat → Hdr} (hf : ∀ q, Fits b (h q)) (S : Nat → Prop) : Shift S b b h h :=
  ⟨(Nat.le_refl _), fun _ _ => rfl, fun q _ => hf q, fun _ _ => .inr (.inl ⟨rfl, rfl⟩), fun _ _ _ => rfl⟩

theorem Shift.allFits {S : Nat → Prop} {b b' : Bank α} {h h' : Nat → Hdr} (s : Shift S b b' h h') (hf : ∀ q, Fits b (h q)) (q : Nat) :
    Fits b' (h' q) := by
  by_cases hq : S q
  · exact s.fits q hq
  · rw [s.same q hq]
    exact ⟨(hf q).1, Nat.le_trans (hf q).2 s.next⟩

/-- An address used by no slice stays so, and what is there is not changed. -/
theorem Shift.outside {S : Nat → Prop} {b b' : Bank α} {h h' : Nat → Hdr} (s : Shift S b b' h h') {a : Nat} (ha : a < b.next)
    (ho : ∀ q, ¬ (h q).Has a) : (∀ q, ¬ (h' q).Has a) ∧ b'.cells a = b.cells a := by
  refine ⟨fun q hq => ?_, s.keep a ha (fun q _ => ho q)⟩
  by_cases hs : S q
  · rcases s.place q hs with h0 | ⟨h1, h2⟩ | h3
    · rw [h0] at hq; simp [Hdr.Has] at hq
    · apply ho q; unfold Hdr.Has at hq ⊢; rw [h1, h2] at hq; exact hq
    · have := hq.1; omega
  · rw [s.same q hs] at hq; exact ho q hq

/-- A slice not in `S` whose array no other slice uses keeps all it has. -/
theorem Shift.other {S : Nat → Prop} {b b' : Bank α} {h h' : Nat → Hdr} (s : Shift S b b' h h') (hf : ∀ q, Fits b (h q)) {p : Nat} (hp : ¬ S p)
    (ha : ∀ q, q ≠ p → Apart (h p) (h q)) :
    h' p = h p ∧ (∀ j, (h p).Has j → b'.cells j = b.cells j) ∧ ∀ q, q ≠ p → Apart (h' p) (h' q) := by
  have hpp := s.same p hp
  refine ⟨hpp, fun j hj => s.keep j ?_ (fun q hq hh => ?_), fun q hq j hj hj' => ?_⟩
  · have := (hf p).2; have := hj.2; omega
  · exact ha q (fun e => hp (e ▸ hq)) j hj hh
  · rw [hpp] at hj
    by_cases hs : S q
    · rcases s.place q hs with h0 | ⟨h1, h2⟩ | h3
      · rw [h0] at hj'; simp [Hdr.Has] at hj'
      · refine ha q hq j hj ?_; unfold Hdr.Has at hj' ⊢; rw [h1, h2] at hj'; exact hj'
      · have := (hf p).2; have := hj.2; have := hj'.1; omega
    · rw [s.same q hs] at hj'; exact ha q hq j hj hj'

/-- A slice that alone is in `S` still shares its array with none. -/
theorem Shift.self {b b' : Bank α} {h h' : Nat → Hdr} {p : Nat} (s : Shift (· = p) b b' h h') (hf : ∀ q, Fits b (h q))
    (ha : ∀ q, q ≠ p → Apart (h p) (h q)) : ∀ q, q ≠ p → Apart (h' p) (h' q) := by
  intro q hq j hj hj'
  rw [s.same q hq] at hj'
  rcases s.place p rfl with h0 | ⟨h1, h2⟩ | h3
  · rw [h0] at hj; simp [Hdr.Has] at hj
  · refine ha q hq j ?_ hj'; unfold Hdr.Has at hj ⊢; rw [h1, h2] at hj; exact hj
  · have := (hf q).2; have := hj'.2; have := hj.1; omega

/-! ## The operations on banks -/

/-- the headers with that of `p` replaced -/
def setHdr (h : Nat → Hdr) (p : Nat) (x : Hdr) : Nat → Hdr := fun q => if q = p then x else h q

theorem setHdr_self (h : Nat → Hdr) (p : Nat) (x : Hdr) : setHdr h p x p = x := if_pos rfl
theorem setHdr_ne (h : Nat → Hdr) {p q : Nat} (x : Hdr) (hq : q ≠ p) : setHdr h p x q = h q := if_neg hq

/-- A change of one slice. -/
theorem shift_one {b b' : Bank α} {h : Nat → Hdr} {p : Nat} {x : Hdr} (h1 : b.next ≤ b'.next) (h2 : Fits b' x)
    (h3 : x = ⟨0, 0, 0⟩ ∨ (x.base = (h p).base ∧ x.cap = (h p).cap) ∨ b.next ≤ x.base)
    (h4 : ∀ j, j < b.next → ¬ (h p).Has j → b'.cells j = b.cells j) : Shift (· = p) b b' h (setHdr h p x) :=
  ⟨h1, fun q hq => setHdr_ne h x hq, fun q hq => by subst hq; rw [setHdr_self]; exact h2,
    fun q hq => by subst hq; rw [setHdr_self]; exact h3, fun j hj hn => h4 j hj (hn p rfl)⟩

theorem append_shift {b : Bank α} {h : Nat → Hdr} {p : Nat} (hf : Fits b (h p)) (x : Cell α) (room : Nat) :
    Shift (· = p) b (b.append (h p) x room).1 h (setHdr h p (b.append (h p) x room).2) := by
  obtain ⟨hl, hc⟩ := hf
  unfold Bank.append
  split
  · rename_i hlt
    refine shift_one (Nat.le_refl _) ⟨hlt, hc⟩ (.inr (.inl ⟨rfl, rfl⟩)) (fun j hj hn => ?_)
    show (if j = (h p).base + (h p).len then x else b.cells j) = _
    rw [if_neg]
    intro e; apply hn; exact ⟨by omega, by omega⟩
  · refine shift_one (Nat.le_add_right _ _) ⟨Nat.le_add_right _ _, (Nat.le_refl _)⟩ (.inr (.inr (Nat.le_refl _))) (fun j hj hn => ?_)
    show (if j = b.next + (h p).len then x else if b.next ≤ j ∧ j < b.next + (h p).len then _ else b.cells j) = _
    rw [if_neg (by omega), if_neg (by omega)]

theorem remove_shift {b : Bank α} {h : Nat → Hdr} {p i : Nat} (hf : Fits b (h p)) (hi : i < (h p).len) (junk : α) :
    Shift (· = p) b (b.remove (h p) i junk).1 h (setHdr h p (b.remove (h p) i junk).2) := by
  obtain ⟨hl, hc⟩ := hf
  refine shift_one (Nat.le_refl _) ⟨Nat.le_trans (Nat.sub_le _ _) hl, hc⟩ (.inr (.inl ⟨rfl, rfl⟩)) (fun j hj hn => ?_)
  have : j ≠ (h p).base + i := fun e => hn ⟨by omega, by omega⟩
  simp [Bank.remove, Bank.put, this]

theorem fill_shift {b : Bank α} {h : Nat → Hdr} {p : Nat} (hf : Fits b (h p)) (vs : List α) :
    Shift (· = p) b (b.fill (h p) p vs).1 h (setHdr h p (b.fill (h p) p vs).2) := by
  obtain ⟨hl, hc⟩ := hf
  unfold Bank.fill
  split
  · rename_i hlt
    refine shift_one (Nat.le_refl _) ⟨hlt, hc⟩ (.inr (.inl ⟨rfl, rfl⟩)) (fun j hj hn => ?_)
    dsimp only
    by_cases hb : (h p).base ≤ j
    · rw [if_pos hb]
      have : vs[j - (h p).base]? = none := by
        rw [List.getElem?_eq_none_iff]
        by_contra hlt2
        exact hn ⟨hb, by omega⟩
      rw [this]
    · rw [if_neg hb]
  · refine shift_one (Nat.le_add_right _ _) ⟨(Nat.le_refl _), (Nat.le_refl _)⟩ (.inr (.inr (Nat.le_refl _))) (fun j hj hn => ?_)
    dsimp only
    rw [if_neg (by omega)]

theorem make_shift {b : Bank α} {h : Nat → Hdr} {p : Nat} (n : Nat) :
    Shift (· = p) b (b.make n).1 h (setHdr h p (b.make n).2) :=
  shift_one (Nat.le_add_right _ _) ⟨Nat.zero_le _, (Nat.le_refl _)⟩ (.inr (.inr (Nat.le_refl _))) (fun _ _ _ => rfl)

theorem nil_shift {b : Bank α} {h : Nat → Hdr} {p : Nat} : Shift (· = p) b b h (setHdr h p ⟨0, 0, 0⟩) :=
  shift_one (Nat.le_refl _) ⟨(Nat.le_refl _), Nat.zero_le _⟩ (.inl rfl) (fun _ _ _ => rfl)

/-- A variable of its own: no slice has it. -/
theorem alloc_shift {b : Bank α} {h : Nat → Hdr} (hf : ∀ q, Fits b (h q)) (x : Cell α) (S : Nat → Prop) : Shift S b (b.alloc x).1 h h := by
  refine ⟨Nat.le_succ _, fun _ _ => rfl, fun q _ => ⟨(hf q).1, Nat.le_succ_of_le (hf q).2⟩, fun _ _ => .inr (.inl ⟨rfl, rfl⟩), fun j hj _ => ?_⟩
  show (if j = b.next then x else b.cells j) = _
  rw [if_neg (by omega)]

theorem Shift.trans {S : Nat → Prop} {b b' b'' : Bank α} {h h' h'' : Nat → Hdr} (s : Shift S b b' h h') (t : Shift S b' b'' h' h'') :
    Shift S b b'' h h'' := by
  refine ⟨Nat.le_trans s.next t.next, fun q hq => (t.same q hq).trans (s.same q hq), t.fits, fun q hq => ?_, fun j hj hn => ?_⟩
  · rcases t.place q hq with h0 | ⟨h1, h2⟩ | h3
    · exact .inl h0
    · rcases s.place q hq with g0 | ⟨g1, g2⟩ | g3
      · rw [g0] at h1 h2
        have hf := t.fits q hq
        refine .inl ?_
        have hl := hf.1
        rcases hh : h'' q with ⟨x, y, z⟩
        rw [hh] at h1 h2 hl
        dsimp only at h1 h2 hl
        subst h1 h2
        rw [Nat.le_zero.mp hl]
      · exact .inr (.inl ⟨h1.trans g1, h2.trans g2⟩)
      · exact .inr (.inr (h1 ▸ g3))
    · exact .inr (.inr (Nat.le_trans s.next h3))
  · rw [t.keep j (Nat.lt_of_lt_of_le hj s.next), s.keep j hj hn]
    intro q hq hh
    rcases s.place q hq with g0 | ⟨g1, g2⟩ | g3
    · rw [g0] at hh; simp [Hdr.Has] at hh
    · refine hn q hq ?_; unfold Hdr.Has at hh ⊢; rw [g1, g2] at hh; exact hh
    · have := hh.1; omega

/-- The loop of `ExportKeys` fills the new array. -/
theorem exportLoop_spec (filter : KeyVal → Bool) (d : Nat) (cs : List (Cell KeyVal)) (b : Bank KeyVal) (h : Hdr) (hn : h.len + cs.length ≤ h.cap)
    (hf : Fits b h) :
    (exportLoop filter d b h cs).1.next = b.next ∧ (exportLoop filter d b h cs).2.base = h.base ∧ (exportLoop filter d b h cs).2.cap = h.cap ∧
      Fits (exportLoop filter d b h cs).1 (exportLoop filter d b h cs).2 ∧
      (∀ j, ¬ h.Has j → (exportLoop filter d b h cs).1.cells j = b.cells j) ∧
      (exportLoop filter d b h cs).1.read (exportLoop filter d b h cs).2 =
        b.read h ++ (cs.filter (fun c => filter c.val)).map (fun c => ⟨c.val, d⟩) := by
  induction cs generalizing b h with
  | nil => exact ⟨rfl, rfl, rfl, hf, fun _ _ => rfl, by simp [exportLoop]⟩
  | cons c cs ih =>
    simp only [List.length_cons] at hn
    unfold exportLoop
    by_cases hc : filter c.val
    · rw [if_pos hc]
      have hlt : h.len < h.cap := by omega
      have e : b.append h ⟨c.val, d⟩ 0 = (b.put (h.base + h.len) ⟨c.val, d⟩, { h with len := h.len + 1 }) := if_pos hlt
      rw [e]
      obtain ⟨h1, h2, h3, h4, h5, h6⟩ := ih (b.put (h.base + h.len) ⟨c.val, d⟩) { h with len := h.len + 1 } (by dsimp only; omega) ⟨hlt, hf.2⟩
      refine ⟨h1, h2, h3, h4, fun j hj => ?_, ?_⟩
      · rw [h5 j hj]
        have : j ≠ h.base + h.len := fun e => hj ⟨by omega, by omega⟩
        simp [Bank.put, this]
      · rw [h6]
        have : (b.put (h.base + h.len) ⟨c.val, d⟩).read { h with len := h.len + 1 } = b.read h ++ [⟨c.val, d⟩] := by
          unfold Bank.read
          rw [List.range_succ, List.map_append]
          congr 1
          · refine List.map_congr_left (fun i hi => ?_)
            have := List.mem_range.mp hi
            simp [Bank.put, show i ≠ h.len by omega]
          · simp [Bank.put]
        rw [this, List.filter_cons_of_pos (by simpa using hc)]
        simp
    · rw [if_neg hc]
      obtain ⟨h1, h2, h3, h4, h5, h6⟩ := ih b h (by omega) hf
      refine ⟨h1, h2, h3, h4, h5, ?_⟩
      rw [h6, List.filter_cons_of_neg (by simpa using hc)]

/-! ## Agreement with the lists of the other model files -/

theorem read_append (b : Bank α) (h : Hdr) (x : Cell α) (room : Nat) :
    (b.append h x room).1.read (b.append h x room).2 = b.read h ++ [x] := by
  unfold Bank.append
  split
  · unfold Bank.read
    rw [List.range_succ, List.map_append]
    congr 1
    · refine List.map_congr_left (fun i hi => ?_)
      have := List.mem_range.mp hi
      simp [Bank.put, show i ≠ h.len by omega]
    · simp [Bank.put]
  · unfold Bank.read
    rw [List.range_succ, List.map_append]
    congr 1
    · refine List.map_congr_left (fun i hi => ?_)
      have := List.mem_range.mp hi
      dsimp only
      rw [if_neg (by omega), if_pos ⟨by omega, by omega⟩, Nat.add_sub_cancel_left]
    · simp

/-- Deleting is `swapRemove` (Keys.lean), whatever wiping leaves. -/
theorem read_remove (b : Bank α) (h : Hdr) {i : Nat} (hi : i < h.len) (junk : α) :
    (b.remove h i junk).1.read (b.remove h i junk).2 = swapRemove (b.read h) i := by
  have hne : b.read h ≠ [] := fun e => by
    have := congrArg List.length e
    simp [Bank.read] at this
    omega
  unfold swapRemove
  rw [List.getLast?_eq_some_getLast hne]
  apply List.ext_getElem
  · simp [Bank.read, Bank.remove]
  · intro j h1 h2
    have hj : j < h.len - 1 := by simpa [Bank.read, Bank.remove] using h1
    have hl : (b.read h).getLast hne = b.cells (h.base + (h.len - 1)) := by
      rw [List.getLast_eq_getElem]
      simp [Bank.read]
    simp only [List.getElem_dropLast, List.getElem_set, hl]
    simp only [Bank.read, Bank.remove, Bank.put, List.getElem_map, List.getElem_range]
    by_cases e : i = j
    · subst e
      rw [if_pos rfl, if_neg (by omega), if_pos rfl]
    · rw [if_neg e, if_neg (by omega), if_neg (by omega)]

theorem read_fill (b : Bank α) (h : Hdr) (p : Nat) (vs : List α) :
    (b.fill h p vs).1.read (b.fill h p vs).2 = vs.map (fun v => ⟨v, p⟩) := by
  unfold Bank.fill
  split
  · apply List.ext_getElem
    · simp [Bank.read]
    · intro j h1 h2
      have hj : j < vs.length := by simpa using h2
      simp [Bank.read, List.getElem?_eq_getElem hj]
  · apply List.ext_getElem
    · simp [Bank.read]
    · intro j h1 h2
      have hj : j < vs.length := by simpa using h2
      simp [Bank.read, List.getElem?_eq_getElem hj]

end K431.Place
