import Verif.DeleteLemmas
import Verif.HandCmdLemmas
import Verif.InitLemmas
import Verif.PropsHandCmd
import Verif.AirLemmas
import Verif.UniformLemmas
import Verif.SpecOrder

/-!
# Every file written is in order: lemmas
-/

namespace K431
open Spec

variable {G : Runes → Runes → Prop}

/-! ## Stores -/

/-- a key in order, with id and letters as `G` says -/
structure KeyKept (G : Runes → Runes → Prop) (groupSize : Nat) (k : Key) : Prop extends KeyInOrder groupSize k where
  origin : G k.id.val k.runes

/-- a store in order, with ids and letters of all keys as `G` says -/
structure Kept (U : Unicode) (G : Runes → Runes → Prop) (i : Inst) : Prop where
  settings : SettingsOk i
  names : DistinctNames U (i.keys.map (fun k => k.id.val))
  keys : ∀ k ∈ i.keys, KeyKept G i.groupSize k
  messageIds : (i.messages.map Msg.id).Nodup
  messages : ∀ m ∈ i.messages, m.id.length = 4 ∧ ∀ c ∈ m.id, IsAlnum c
  callSign : i.callSign = [] ∨ 2 ≤ i.callSign.length

theorem Kept.inOrder {U : Unicode} {i : Inst} (h : Kept U G i) : InOrder U i :=
  ⟨h.settings, h.names, fun k hk => (h.keys k hk).toKeyInOrder, h.messageIds, h.messages, h.callSign⟩

theorem InOrder.kept {U : Unicode} {i : Inst} (h : InOrder U i) : Kept U (fun _ _ => True) i :=
  ⟨h.settings, h.names, fun k hk => ⟨h.keys k hk, trivial⟩, h.messageIds, h.messages, h.callSign⟩

theorem Kept.mono {U : Unicode} {G' : Runes → Runes → Prop} {i : Inst} (h : Kept U G i) (hG : ∀ a b, G a b → G' a b) : Kept U G' i :=
  ⟨h.settings, h.names, fun k hk => ⟨(h.keys k hk).toKeyInOrder, hG _ _ (h.keys k hk).origin⟩, h.messageIds, h.messages, h.callSign⟩

/-- what the order of a store says about a key -/
def Key.face (k : Key) : Runes × Runes := (k.id.val, k.runes)

theorem KeyKept.face {g : Nat} {x y : Key} (h : KeyKept G g x) (e : y.face = x.face) : KeyKept G g y := by
  simp only [Key.face, Prod.mk.injEq] at e
  obtain ⟨e1, e2⟩ := e
  exact ⟨⟨by rw [e1]; exact h.idLength, by rw [e1]; exact h.idLetters, by rw [e2]; exact h.pad, by rw [e2]; exact h.letters, by rw [e2]; exact h.whole⟩,
    by rw [e1, e2]; exact h.origin⟩

theorem ids_of_faces {l m : List Key} (h : l.map Key.face = m.map Key.face) : l.map (fun k => k.id.val) = m.map (fun k => k.id.val) := by
  have := congrArg (List.map Prod.fst) h
  rw [List.map_map, List.map_map] at this
  exact this

theorem Kept.congr {U : Unicode} {i j : Inst} (h : Kept U G i) (h1 : j.groupSize = i.groupSize) (h2 : j.keyLength = i.keyLength) (h3 : j.columns = i.columns)
    (h4 : j.keyColumns = i.keyColumns) (h5 : j.callSign = i.callSign) (h6 : j.keys.map Key.face = i.keys.map Key.face) (h7 : j.messages.map Msg.id = i.messages.map Msg.id) :
    Kept U G j := by
  refine ⟨⟨by rw [h1]; exact h.settings.groupSize, by rw [h2]; exact h.settings.keyLength, by rw [h3]; exact h.settings.columns, by rw [h1, h4]; exact h.settings.keyColumns⟩, ?_, ?_, ?_, ?_, ?_⟩
  · rw [ids_of_faces h6]; exact h.names
  · intro k hk
    have : k.face ∈ i.keys.map Key.face := h6 ▸ List.mem_map_of_mem hk
    obtain ⟨x, hx, e⟩ := List.mem_map.1 this
    rw [h1]
    exact (h.keys x hx).face e.symm
  · rw [h7]; exact h.messageIds
  · intro m hm
    have : m.id ∈ i.messages.map Msg.id := h7 ▸ List.mem_map_of_mem hm
    obtain ⟨x, hx, e⟩ := List.mem_map.1 this
    rw [← e]
    exact h.messages x hx
  · rw [h5]; exact h.callSign

theorem faces_sameKey {l m : List Key} (h : List.Forall₂ SameKey l m) : l.map Key.face = m.map Key.face := by
  induction h with
  | nil => rfl
  | cons a _ ih => simp only [List.map_cons, ih, Key.face, a.id, a.runes]

theorem faces_markedSince {l m : List Key} (h : List.Forall₂ MarkedSince l m) : m.map Key.face = l.map Key.face := by
  induction h with
  | nil => rfl
  | cons a _ ih => rw [List.map_cons, List.map_cons, ih, a.1]; rfl

theorem faces_sameMat {l m : List Key} (h : SameMat l m) : l.map Key.face = m.map Key.face := by
  have := congrArg (List.map Key.face) h
  rw [List.map_map, List.map_map] at this
  exact this

theorem ids_sameMsg {l m : List Msg} (h : List.Forall₂ SameMsg l m) : l.map Msg.id = m.map Msg.id := by
  induction h with
  | nil => rfl
  | cons a _ ih => simp only [List.map_cons, ih, a.id]

theorem ids_seenAs {ids : List Runes} {l m : List Msg} (h : List.Forall₂ (SeenAs ids) l m) : m.map Msg.id = l.map Msg.id := by
  induction h with
  | nil => rfl
  | cons a _ ih => simp only [List.map_cons, ih, seenAs_id a]

theorem Kept.same {U : Unicode} {i j : Inst} (h : Kept U G i) (hs : SameStore j i) : Kept U G j :=
  h.congr hs.groupSize hs.keyLength hs.columns hs.keyColumns hs.callSign (faces_sameKey hs.keys) (ids_sameMsg hs.messages)

theorem Kept.nonzero {U : Unicode} {i : Inst} (h : Kept U G i) : i.groupSize ≠ 0 ∧ i.keyLength ≠ 0 ∧ i.columns ≠ 0 ∧ i.keyColumns ≠ 0 := by
  have := h.settings.groupSize
  have := h.settings.keyLength
  have := h.settings.columns
  have := h.settings.keyColumns
  omega

theorem Kept.deleteKey {U : Unicode} {i : Inst} (h : Kept U G i) (hs : StoreOk U i) (ids : List Runes) (noise : Nat → Noise) : Kept U G (deleteKey U noise i ids).2 := by
  obtain ⟨⟨f, p, hf⟩, -, -, ⟨g, -, e⟩⟩ := C26_partial U noise i ids hs
  have hn := (hs.delete (ids := ids) (noise := noise)).distinct
  generalize K431.deleteKey U noise i ids = r at *
  refine ⟨?_, hn, ?_, ?_, ?_, ?_⟩
  · rw [e]; exact ⟨h.settings.groupSize, h.settings.keyLength, h.settings.columns, h.settings.keyColumns⟩
  · intro k hk
    obtain ⟨x, hx, rfl⟩ := List.mem_map.1 (p.mem_iff.1 hk)
    have hg : r.2.groupSize = i.groupSize := by rw [e]
    rw [hg]
    refine (h.keys x (List.mem_filter.1 hx).1).face ?_
    have := (hf x).1.eq
    simp only [Key.face]
    rw [this]
  · have hm : r.2.messages.map Msg.id = i.messages.map Msg.id := by rw [e]; dsimp only; rw [List.map_map]; rfl
    rw [hm]; exact h.messageIds
  · intro m hm
    rw [e] at hm
    obtain ⟨x, hx, rfl⟩ := List.mem_map.1 hm
    exact h.messages x hx
  · rw [e]; exact h.callSign

/-- what the sections of `keys` keep in memory -/
structure KeysFine (U : Unicode) (G : Runes → Runes → Prop) (i : Inst) : Prop where
  store : StoreOk U i
  order : Kept U G i

theorem KeysFine.deleteKey {U : Unicode} {i : Inst} (h : KeysFine U G i) (ids : List Runes) (noise : Nat → Noise) : KeysFine U G (deleteKey U noise i ids).2 :=
  ⟨h.store.delete, h.order.deleteKey h.store ids noise⟩

theorem KeysFine.bySummary {U : Unicode} : ∀ {lines : List Runes} {noise : Nat → Nat → Noise} {i : Inst}, KeysFine U G i → KeysFine U G (deleteKeysBySummary U noise i lines).2
  | [], _, _, h => h
  | _ :: ls, _, _, h => KeysFine.bySummary (lines := ls) (h.deleteKey _ _)

theorem KeysFine.add {U : Unicode} {i : Inst} (h : KeysFine U G i) {k : Key} {n : Nat} (hk : ¬ InFold U k.id.val (i.keys.map (fun k => k.id.val))) (ha : k.id.addr = i.nextAddr)
    (hn : i.nextAddr < n) (ho : KeyKept G i.groupSize k) : KeysFine U G { i with keys := i.keys ++ [k], nextAddr := n } := by
  have hs := h.store.add hk ha hn
  refine ⟨hs, ⟨⟨h.order.settings.groupSize, h.order.settings.keyLength, h.order.settings.columns, h.order.settings.keyColumns⟩, hs.distinct, ?_, h.order.messageIds, h.order.messages,
    h.order.callSign⟩⟩
  intro x hx
  rcases List.mem_append.1 hx with hx | hx
  · exact h.order.keys x hx
  · rw [List.mem_singleton.1 hx]; exact ho

theorem KeysFine.addImported {U : Unicode} {i : Inst} (h : KeysFine U G i) {call : Sl} {k : Key} {g : Nat} (hk : ¬ InFold U k.id.val (i.keys.map (fun k => k.id.val)))
    (hg : k.id.val.length = i.groupSize) (ho : KeyKept G g k) : KeysFine U G (addImported U call k i) := by
  unfold K431.addImported
  refine h.add hk rfl (by omega) ?_
  have : g = i.groupSize := by rw [← hg, ho.idLength]
  subst this
  exact ho.face rfl

theorem KeysFine.importLoop {U : Unicode} {o : ImportOpts} {filter : Key → Bool} {call : Sl} {g : Nat} : ∀ (ks : List Key) (noise : Nat → Noise) (n : Nat) (i : Inst),
    (∀ k ∈ ks, KeyKept G g k) → KeysFine U G i → KeysFine U G (importLoop U noise o filter call ks n i).2.2
  | [], _, _, _, _, h => h
  | k :: ks, noise, n, i, hks, h => by
    obtain ⟨r, hr, e⟩ := importLoop_cons U noise o filter call k ks n i
    rw [e]
    have hks' : ∀ k ∈ ks, KeyKept G g k := fun x hx => hks x (List.mem_cons_of_mem _ hx)
    have hk := hks k (by simp)
    cases hr with
    | skipLen _ => exact KeysFine.importLoop ks _ _ i hks' h
    | skipFilter _ => exact KeysFine.importLoop ks _ _ i hks' h
    | skipExisting _ _ _ _ _ => exact KeysFine.importLoop ks _ _ i hks' h
    | stop _ _ _ _ => exact h
    | new h1 _ h3 => exact KeysFine.importLoop ks _ _ _ hks' (h.addImported h3 h1 hk)
    | replace h1 _ h3 _ =>
      refine KeysFine.importLoop ks _ _ _ hks' ((h.deleteKey [k.id.val] (fun _ => noise 0)).addImported ?_ ?_ hk)
      · rintro ⟨b, hb, hs⟩
        obtain ⟨x, hx, rfl⟩ := List.mem_map.1 hb
        obtain ⟨⟨f, p, hf⟩, -⟩ := C26_partial U (fun _ => noise 0) i [k.id.val] h.store
        obtain ⟨y, hy, rfl⟩ := List.mem_map.1 (p.mem_iff.1 hx)
        have hid : (f y).id.val = y.id.val := by rw [(hf y).1.eq]
        have := (List.mem_filter.1 hy).2
        simp only [Bool.not_eq_eq_eq_not, Bool.not_true, decide_eq_false_iff_not] at this
        exact this ⟨k.id.val, by simp, by rw [← hid]; exact hs.symm⟩
      · obtain ⟨-, -, -, ⟨g', -, e'⟩⟩ := C26_partial U (fun _ => noise 0) i [k.id.val] h.store
        rw [e']; exact h1

theorem KeysFine.importKeys {U : Unicode} {noise : Nat → Noise} {o : ImportOpts} {filter : Key → Bool} {ks : List Key} {call : Runes} {i : Inst} {g : Nat} (h : KeysFine U G i)
    (hks : ∀ k ∈ ks, KeyKept G g k) : KeysFine U G (importKeys U noise o filter (.ok (ks, call)) i).2.2 := by
  unfold K431.importKeys
  refine KeysFine.importLoop ks _ _ _ hks ⟨⟨h.store.distinct, h.store.arrays, fun k hk => Nat.lt_succ_of_lt (h.store.fresh k hk)⟩, ?_⟩
  exact h.order.congr rfl rfl rfl rfl rfl rfl rfl

theorem KeysFine.generate {U : Unicode} {now : Nat → Int} {start n : Int} {expire : Option (Outcome Int)} {keepers : List Runes} {i i' : Inst} {t t' : Tape} {o : Outcome Unit}
    (h : KeysFine U G i) (hg : generateKeys U now start n expire keepers i t = some (o, i', t')) (hG : ∀ x ∈ i'.keys, x ∈ i.keys ∨ G x.id.val x.runes) : KeysFine U G i' := by
  have hs : StoreOk U i' := by
    unfold generateKeys at hg
    split at hg
    · rename_i e he
      rcases hl : generateLoop U now e keepers n.toNat i t with _ | ⟨i1, t1⟩
      · rw [hl] at hg; cases hg
      · rw [hl] at hg
        simp only [Option.map_some, Option.some.injEq, Prod.mk.injEq] at hg
        rw [← hg.2.1]
        exact h.store.generateLoop hl
    all_goals
      simp only [Option.some.injEq, Prod.mk.injEq] at hg
      rw [← hg.2.1]; exact h.store
  refine ⟨hs, ?_⟩
  obtain ⟨h1, h2⟩ := C24_generate U now start n expire keepers i i' t t' o h.order.nonzero.1 hg
  by_cases ho : o = .ok ()
  · obtain ⟨new, nx, e, hi, -, -, -, hf, -⟩ := h1 ho
    refine ⟨?_, hs.distinct, ?_, ?_, ?_, ?_⟩
    · rw [hi]; exact ⟨h.order.settings.groupSize, h.order.settings.keyLength, h.order.settings.columns, h.order.settings.keyColumns⟩
    · intro k hk
      have hG := hG k hk
      rw [hi] at hk ⊢
      rcases List.mem_append.1 hk with hk | hk
      · exact h.order.keys k hk
      · have f := hf k hk
        rcases hG with hG | hG
        · exact h.order.keys k hG
        refine ⟨⟨f.idLength, f.idLetters, ?_, f.letters, f.whole⟩, hG⟩
        intro e0
        have := f.long
        have := h.order.settings.keyLength
        rw [e0] at *
        simp at *
        omega
    · rw [hi]; exact h.order.messageIds
    · rw [hi]; exact h.order.messages
    · rw [hi]; exact h.order.callSign
  · rw [h2 ho]; exact h.order

/-! ## Where keys come from -/

theorem int31_bits (w : Nat) : int31 w = w / 2 ^ 32 % 2 ^ 31 := by
  unfold int31
  rw [int63_eq, Nat.shiftRight_eq_div_pow]
  omega

theorem intn26_letters : ∀ (t t' : Tape) (x : Nat), intn 26 t = some (x, t') → wordLetters t = letterOf x :: wordLetters t' := by
  intro t
  induction t with
  | nil => intro t' x h; cases h
  | cons w t ih =>
    intro t' x h
    rw [intn_small (by decide) (by decide)] at h ih
    simp only [int31nLoop, int31_bits] at h
    unfold wordLetters wordLetter
    rw [List.filterMap_cons]
    dsimp only
    split at h
    · rename_i hw
      rw [if_neg (by omega)]
      exact ih t' x h
    · rename_i hw
      simp only [Option.some.injEq, Prod.mk.injEq] at h
      obtain ⟨rfl, rfl⟩ := h
      rw [if_pos (by omega)]
      unfold letterOf
      dsimp only
      congr 1
      omega

theorem intns26_letters : ∀ (k : Nat) (t t' : Tape) (xs : List Nat), intns 26 k t = some (xs, t') → wordLetters t = xs.map letterOf ++ wordLetters t' := by
  intro k
  induction k with
  | zero => intro t t' xs h; simp only [intns, Option.some.injEq, Prod.mk.injEq] at h; obtain ⟨rfl, rfl⟩ := h; rfl
  | succ k ih =>
    intro t t' xs h
    simp only [intns] at h
    rcases hi : intn 26 t with _ | ⟨x, t1⟩
    · rw [hi] at h; cases h
    rw [hi] at h
    dsimp only at h
    rcases hr : intns 26 k t1 with _ | ⟨ys, t2⟩
    · rw [hr] at h; cases h
    rw [hr] at h
    simp only [Option.some.injEq, Prod.mk.injEq] at h
    obtain ⟨rfl, rfl⟩ := h
    rw [intn26_letters t t1 x hi, ih t1 t2 ys hr]
    rfl

theorem newIdLoop_letters {U : Unicode} {keys : List Key} {g : Nat} : ∀ (fuel : Nat) (t t' : Tape) (id : Runes), newIdLoop U keys g fuel t = some (id, t') →
    ∃ gap, wordLetters t = gap ++ id ++ wordLetters t' := by
  intro fuel
  induction fuel with
  | zero => intro t t' id h; cases h
  | succ fuel ih =>
    intro t t' id h
    simp only [newIdLoop] at h
    rcases hi : intns 26 g t with _ | ⟨xs, t1⟩
    · rw [hi] at h; cases h
    rw [hi] at h
    dsimp only at h
    have e := intns26_letters g t t1 xs hi
    split at h
    · obtain ⟨gap, e'⟩ := ih t1 t' id h
      exact ⟨xs.map letterOf ++ gap, by rw [e, e']; simp⟩
    · simp only [Option.some.injEq, Prod.mk.injEq] at h
      obtain ⟨rfl, rfl⟩ := h
      exact ⟨[], by rw [e]; rfl⟩

theorem newKey_letters {U : Unicode} {now expire : Int} {keepers : List Runes} {inst inst' : Inst} {t t' : Tape} {k : Key}
    (h : newKey U now expire keepers inst t = some (k, inst', t')) : ∃ gap, wordLetters t = gap ++ k.id.val ++ k.runes ++ wordLetters t' := by
  unfold newKey at h
  simp only at h
  rcases hi : newIdLoop U inst.keys inst.groupSize (t.length + 1) t with _ | ⟨id, t1⟩
  · rw [hi] at h; cases h
  rw [hi] at h
  simp only at h
  rcases hr : intns 26 (newKeyLength inst.keyLength inst.groupSize) t1 with _ | ⟨xs, t2⟩
  · rw [hr] at h; cases h
  rw [hr] at h
  simp only [Option.some.injEq, Prod.mk.injEq] at h
  obtain ⟨rfl, rfl, rfl⟩ := h
  obtain ⟨gap, e⟩ := newIdLoop_letters _ _ _ _ hi
  exact ⟨gap, by rw [e, intns26_letters _ _ _ _ hr]; simp⟩

theorem generateLoop_letters {U : Unicode} {now : Nat → Int} {e : Int} {keepers : List Runes} : ∀ (n : Nat) (inst inst' : Inst) (t t' : Tape),
    generateLoop U now e keepers n inst t = some (inst', t') → ∃ new, inst'.keys = inst.keys ++ new ∧ InSequence (new.map Key.face) (wordLetters t) := by
  intro n
  induction n with
  | zero =>
    intro inst inst' t t' h
    simp only [generateLoop, Option.some.injEq, Prod.mk.injEq] at h
    exact ⟨[], by rw [h.1]; simp, .nil _⟩
  | succ n ih =>
    intro inst inst' t t' h
    simp only [generateLoop] at h
    rcases hk : newKey U (now n) e keepers inst t with _ | ⟨k, inst1, t1⟩
    · rw [hk] at h; cases h
    rw [hk] at h
    dsimp only at h
    obtain ⟨new, e1, e2⟩ := ih inst1 inst' t1 t' h
    obtain ⟨gap, e3⟩ := newKey_letters hk
    refine ⟨k :: new, ?_, ?_⟩
    · rw [e1, (newKey_spec hk).1]; simp
    · rw [e3]; exact .cons gap e2

/-- the keys that `GenerateKeys` makes -/
theorem generate_made (U : Unicode) (now : Nat → Int) (start n : Int) (expire : Option (Outcome Int)) (keepers : List Runes) (inst : Inst) (t : Tape) :
    ∃ made, InSequence made (wordLetters t) ∧ ∀ o i' t', generateKeys U now start n expire keepers inst t = some (o, i', t') →
      ∀ x ∈ i'.keys, x ∈ inst.keys ∨ (x.id.val, x.runes) ∈ made := by
  unfold generateKeys
  split
  · rename_i e he
    rcases hl : generateLoop U now e keepers n.toNat inst t with _ | ⟨i1, t1⟩
    · exact ⟨[], .nil _, by simp⟩
    · obtain ⟨new, e1, e2⟩ := generateLoop_letters _ _ _ _ _ hl
      refine ⟨_, e2, ?_⟩
      intro o i' t' h x hx
      simp only [Option.map_some, Option.some.injEq, Prod.mk.injEq] at h
      rw [← h.2.1, e1] at hx
      exact (List.mem_append.1 hx).imp_right (List.mem_map_of_mem (f := Key.face))
  all_goals
    refine ⟨[], .nil _, ?_⟩
    intro o i' t' h x hx
    simp only [Option.some.injEq, Prod.mk.injEq] at h
    rw [← h.2.1] at hx
    exact .inl hx

/-! ## Messages -/

/-- what the sections of `messages` keep in memory -/
structure MsgsFine (U : Unicode) (G : Runes → Runes → Prop) (i : Inst) : Prop where
  apart : KeyIdsApart i
  order : Kept U G i

theorem MsgsFine.delete {U : Unicode} {i : Inst} (h : MsgsFine U G i) (ids : List Runes) (noise : Nat → Nat → Rune) : MsgsFine U G (deleteMessage noise i ids).2 := by
  obtain ⟨-, -, H⟩ := C27_partial noise i ids h.order.messageIds
  obtain ⟨e, p⟩ := H (fun m hm hi hv => ⟨h.apart.other m hm hv, fun m' hm' hi' ea => by
    have hne : m' ≠ m := by rintro rfl; exact hi' hi
    exact hv (pairwise_both (fun x y h e => (h e.symm).symm) h.apart.keyIds hm' hm hne ea).2⟩)
  generalize deleteMessage noise i ids = r at *
  have hsub : ∀ m ∈ r.2.messages, m ∈ i.messages := fun m hm => (List.mem_filter.1 (p.mem_iff.1 hm)).1
  have hk : r.2.keys = i.keys := by rw [e]
  have hn : r.2.nextAddr = i.nextAddr := by rw [e]
  refine ⟨⟨?_, ?_, ?_, ?_, ?_⟩, ⟨?_, ?_, ?_, ?_, ?_, ?_⟩⟩
  · rw [hk, hn]; exact h.apart.keys
  · rw [hn]; exact fun m hm => h.apart.fresh m (hsub m hm)
  · exact fun m hm => h.apart.nonzero m (hsub m hm)
  · rw [hk]; exact fun m hm => h.apart.other m (hsub m hm)
  · exact (List.Perm.pairwise_iff (fun hxy e => (hxy e.symm).symm) p).2 (h.apart.keyIds.sublist List.filter_sublist)
  · rw [e]; exact ⟨h.order.settings.groupSize, h.order.settings.keyLength, h.order.settings.columns, h.order.settings.keyColumns⟩
  · rw [hk]; exact h.order.names
  · rw [e]; exact h.order.keys
  · exact (p.map Msg.id).nodup_iff.2 (h.order.messageIds.sublist (List.filter_sublist.map _))
  · exact fun m hm => h.order.messages m (hsub m hm)
  · rw [e]; exact h.order.callSign

theorem MsgsFine.bySummary {U : Unicode} : ∀ {lines : List Runes} {noise : Nat → Nat → Nat → Rune} {i : Inst}, MsgsFine U G i → MsgsFine U G (deleteMessagesBySummary U noise i lines).2
  | [], _, _, h => h
  | _ :: ls, _, _, h => MsgsFine.bySummary (lines := ls) (h.delete _ _)

theorem Kept.named {U : Unicode} {i : Inst} (h : Kept U G i) : ∀ m ∈ i.messages, m.id ≠ [] := by
  intro m hm e
  have := (h.messages m hm).1
  rw [e] at this
  simp at this

theorem MsgsFine.summary {U : Unicode} {fresh : Nat → Runes} {date : Int → Runes} {digest : Msg → Runes} {filter : Msg → Bool} {i i' : Inst} {header : Runes} {lines : List Runes}
    (h : MsgsFine U G i) (hs : summaryOfMessages U fresh date digest filter i = .ok (i', header, lines)) : MsgsFine U G i' := by
  have he : ScanEffect i i' := by
    unfold summaryOfMessages at hs
    rcases hc : scanMessages U fresh filter (List.range i.messages.length) i with ⟨i1, sel⟩ | e | _
    · rw [hc] at hs
      simp only [Outcome.ok.injEq, Prod.mk.injEq] at hs
      obtain ⟨rfl, -⟩ := hs
      exact scan_effect _ _ _ _ h.apart h.order.named hc
    · rw [hc] at hs; cases hs
    · rw [hc] at hs; cases hs
  obtain ⟨nx, e⟩ := he.frame
  refine ⟨he.apart, h.order.congr ?_ ?_ ?_ ?_ ?_ (faces_markedSince he.keys) (ids_seenAs he.messages)⟩ <;> rw [e]

theorem parse_fresh {U : Unicode} {E : RadioEnv} {msgs : List Msg} {rad : Runes} {t t' : Tape} {p : Msg} (h : parseRadiogram U E msgs rad t = some (.ok p, t')) :
    p.id.length = 4 ∧ (∀ c ∈ p.id, IsAlnum c) ∧ ∀ m ∈ msgs, m.id ≠ p.id := by
  unfold parseRadiogram at h
  dsimp only at h
  rcases hn : newUniqueMessageId msgs t with _ | ⟨id, t1⟩
  · rw [hn] at h; cases h
  rw [hn] at h
  dsimp only at h
  have := C28_newId msgs t t1 id hn
  split at h
  · simp at h
  · split at h
    · simp at h
    · simp at h
    · simp only [Option.some.injEq, Prod.mk.injEq, Outcome.ok.injEq] at h
      obtain ⟨rfl, -⟩ := h
      exact this

theorem Kept.newMessage {U : Unicode} {noise : Nat → Rune} {R : RadioEnv} {f : Runes} {i i' : Inst} {rad : Runes} {t t' : Tape} {m : Msg} (h : Kept U G i)
    (hr : newTextMessageRun U noise R f i [rad] t = some ((.ok m, i'), t')) : Kept U G i' := by
  obtain ⟨nx, hi⟩ := newRun_frame hr
  have key : i'.keys.map Key.face = i.keys.map Key.face ∧ m.id.length = 4 ∧ (∀ c ∈ m.id, IsAlnum c) ∧ ∀ x ∈ i.messages, x.id ≠ m.id := by
    unfold newTextMessageRun at hr
    dsimp only at hr
    rcases hp : parseRadiogram U R i.messages rad t with _ | ⟨op, t1⟩
    · rw [hp] at hr; cases hr
    rw [hp] at hr
    simp only [Option.some.injEq, Prod.mk.injEq] at hr
    obtain ⟨hr, rfl⟩ := hr
    have hc := newTextMessage_cases hr
    generalize ho : (Outcome.ok m : Outcome Msg) = oc at hc
    cases hc with
    | failed hne => exact absurd ho.symm (hne m)
    | own ha hpar hmy hc he =>
      cases ho
      rename_i p p1 inst1 inst2
      cases hpar
      have hid := parse_fresh hp
      have hne : ¬ p.id.length = 0 := by omega
      obtain ⟨chunks, hT⟩ := encipher_T he
      obtain ⟨e1, e2⟩ := encipher_ok_messages he
      obtain ⟨inst1', m1, j, s, out, hE⟩ := encipherT_ok hT
      have hm := hE.sameMat
      rcases hc with ⟨-, rfl, rfl⟩ | ⟨_, _, _, hrest, -, -⟩
      · refine ⟨?_, ?_⟩
        · exact faces_sameMat (hE.hinst ▸ hm)
        · have : m.id = p1.id := by rw [e2]; unfold withId; rw [if_neg hne]
          rw [this]; exact hid
      · cases ha; cases hrest
    | other ha hpar hmy hp1 ht =>
      cases ho
      rename_i p p1 inst2 o
      cases hpar
      have hid := parse_fresh hp
      have hid1 : p1.id = p.id := by rw [hp1]; split <;> rfl
      have hne : p1.id ≠ [] := by intro e; rw [hid1] at e; rw [e] at hid; simp at hid
      obtain ⟨ks, nx', e1, -, e2, e3, -⟩ := tryDecipher_effect hne ht
      have hmid : m.id = p.id := (seenAs_id e3).trans hid1
      rw [hmid]
      refine ⟨?_, hid⟩
      rw [e1]
      exact faces_markedSince e2
  obtain ⟨k1, k2, k3, k4⟩ := key
  have hg : i'.groupSize = i.groupSize := by rw [hi]
  have hm : i'.messages = i.messages ++ [m] := by rw [hi]
  have hb : Kept U G { i' with messages := i.messages } := by
    refine h.congr ?_ ?_ ?_ ?_ ?_ k1 rfl <;> rw [hi]
  refine ⟨⟨hb.settings.groupSize, hb.settings.keyLength, hb.settings.columns, hb.settings.keyColumns⟩, hb.names, hb.keys, ?_, ?_, hb.callSign⟩
  · rw [hm, List.map_append, List.nodup_append]
    refine ⟨h.messageIds, by simp, ?_⟩
    intro a ha b hb'
    obtain ⟨x, hx, rfl⟩ := List.mem_map.1 ha
    simp only [List.map_cons, List.map_nil, List.mem_singleton] at hb'
    rw [hb']
    exact k4 x hx
  · intro x hx
    rw [hm] at hx
    rcases List.mem_append.1 hx with hx | hx
    · exact h.messages x hx
    · rw [List.mem_singleton.1 hx]; exact ⟨k2, k3⟩

/-! ## Files -/

/-- whoever opens the file finds a store in order -/
def Sound (C : Codec) (U : Unicode) (G : Runes → Runes → Prop) (c : List Nat) : Prop := ∀ key w, key.length = 32 → C.dec key c = some w → ∃ i, Kept U G i ∧ w = gobInst i

theorem Opaque.sound {C : Codec} {U : Unicode} {c : List Nat} (h : Opaque C c) : Sound C U G c := by
  intro key w hk hd
  rw [h key hk] at hd
  cases hd

theorem sound_enc {C : Codec} (hC : C.Lawful) {U : Unicode} {key : List Nat} {n : Nat} {i : Inst} (hl : key.length = 32) (hi : Kept U G i) (j : Nat) :
    Sound C U G ((C.enc key n (gobInst i)).take j) := by
  intro key' w hk hd
  by_cases e : key = key'
  · subst e
    rcases hC.part key n (gobInst i) j hl with h | h
    · rw [h] at hd; cases hd
    · rw [h] at hd
      exact ⟨i, hi, by simpa using hd.symm⟩
  · rw [hC.wrong key key' n (gobInst i) j hl hk e] at hd
    cases hd

/-- every file is sound -/
def DiskOk (C : Codec) (U : Unicode) (G : Runes → Runes → Prop) (d : Disk) : Prop := ∀ p c, d p = some c → Sound C U G c

theorem DiskOk.set {C : Codec} {U : Unicode} {d : Disk} (h : DiskOk C U G d) {p c : List Nat} (hc : Sound C U G c) : DiskOk C U G (d.set p c) := by
  intro q c' hq
  unfold Disk.set at hq
  split at hq
  · cases hq; exact hc
  · exact h q c' hq

theorem save_sound {C : Codec} (hC : C.Lawful) {E : PwEnv} {U : Unicode} {W : World} {disk : Disk} {k : Krypto} {r : SaveRun} (h : save C E W disk k = some r) (hi : Kept U G k.inst)
    (hd : DiskOk C U G disk) : r.k.inst = k.inst ∧ (∀ c ∈ r.contents, Sound C U G c) ∧ DiskOk C U G (r.disk disk) := by
  have last : (∀ c ∈ r.contents, Sound C U G c) → DiskOk C U G (r.disk disk) := by
    intro hs
    unfold SaveRun.disk
    split
    · exact hd
    · rename_i c hc
      exact hd.set (hs c (List.mem_of_getLast? hc))
  rcases save_cases h with ⟨h1, h2, -⟩ | ⟨path, key, -, -, -, -, e, -⟩
  · have hs : ∀ c ∈ r.contents, Sound C U G c := by rw [h1]; simp
    exact ⟨h2, hs, last hs⟩
  · suffices r.k.inst = k.inst ∧ ∀ c ∈ r.contents, Sound C U G c from ⟨this.1, this.2, last this.2⟩
    rw [e]
    unfold saveWrite
    split
    · exact ⟨rfl, by simp⟩
    split
    · refine ⟨rfl, ?_⟩
      intro c hc
      rw [List.mem_singleton.1 hc]
      intro key' w _ hd'
      rw [hC.empty] at hd'
      cases hd'
    · rename_i hl
      have hl' : (key.take 32).length = 32 := by simp; omega
      have hs : ∀ n, ∀ c ∈ (List.range (n + 1)).map (C.enc (key.take 32) W.nonce (gobInst k.inst)).take, Sound C U G c := by
        intro n c hc
        obtain ⟨j, -, rfl⟩ := List.mem_map.1 hc
        exact sound_enc hC hl' hi j
      dsimp only
      split
      · exact ⟨rfl, hs _⟩
      · split
        · exact ⟨rfl, hs _⟩
        · exact ⟨rfl, hs _⟩

theorem load_kept {C : Codec} {E : PwEnv} {U : Unicode} {W : World} {disk : Disk} {k k' : Krypto} (hd : DiskOk C U G disk) (hb : K431.Blank k)
    (h : load C E W disk k = some (.ok (), k')) : Kept U G k'.inst := by
  obtain ⟨path, key, c, w, -, h2, h3, h4, rfl, -⟩ := load_ok h
  obtain ⟨i, hi, rfl⟩ := hd path c h2 (key.take 32) w (by simp; omega) h4
  obtain ⟨a, b, c', d⟩ := hi.nonzero
  obtain ⟨hs, -⟩ := gobDecode_blank (k := { k with persistence := path, pfk := some key }) ⟨hb.keys, hb.messages, hb.callSign, hb.spareKeys, hb.spareMsgs⟩ i a b c' d
  exact hi.same hs

theorem prepared_blank (E : PwEnv) (a : Access) (file : List Nat) : K431.Blank (prepared E a file).2 := by
  obtain ⟨x, y, hf⟩ := prepared_frame E a file
  rw [hf]
  exact ⟨newBase_blank.keys, newBase_blank.messages, newBase_blank.callSign, newBase_blank.spareKeys, newBase_blank.spareMsgs⟩

/-! ## Commands -/

/-- every file, and everything written on the way, is sound -/
structure Fine (C : Codec) (U : Unicode) (G : Runes → Runes → Prop) (s : Cmd) : Prop where
  disk : DiskOk C U G s.disk
  touched : ∀ t ∈ s.touched, ∀ c ∈ t.contents, Sound C U G c

/-- after a section: everything is sound, and if the command goes on, `P` holds in memory -/
inductive After (C : Codec) (U : Unicode) (G : Runes → Runes → Prop) (P : Inst → Prop) : Course → Prop
  | go {s : Cmd} : Fine C U G s → P s.k.inst → After C U G P (.go s)
  | stop {o : Outcome Unit} {s : Cmd} : Fine C U G s → After C U G P (.stop o s)

theorem After.fine {C : Codec} {U : Unicode} {P : Inst → Prop} {r : Course} (h : After C U G P r) : Fine C U G r.state := by
  cases h <;> assumption

theorem andThen_after {C : Codec} {U : Unicode} {P Q : Inst → Prop} {x : Option Course} {f : Cmd → Option Course} {r : Course} (h : andThen x f = some r)
    (h1 : ∀ q, x = some q → After C U G P q) (h2 : ∀ s, Fine C U G s → P s.k.inst → ∀ q, f s = some q → After C U G Q q) : After C U G Q r := by
  rcases x with _ | q
  · cases h
  have := h1 q rfl
  cases this with
  | go a b => exact h2 _ a b r h
  | stop a => simp only [andThen, Option.some.injEq] at h; rw [← h]; exact .stop a

theorem andThen_after_eq {C : Codec} {U : Unicode} {P Q : Inst → Prop} {x : Option Course} {f : Cmd → Option Course} {r : Course} (h : andThen x f = some r)
    (h1 : ∀ q, x = some q → After C U G P q) (h2 : ∀ s, x = some (.go s) → Fine C U G s → P s.k.inst → ∀ q, f s = some q → After C U G Q q) : After C U G Q r := by
  rcases x with _ | q
  · cases h
  have := h1 q rfl
  cases this with
  | go a b => exact h2 _ rfl a b r h
  | stop a => simp only [andThen, Option.some.injEq] at h; rw [← h]; exact .stop a

theorem check_after {C : Codec} {U : Unicode} {P : Inst → Prop} {o : Outcome Unit} {s : Cmd} (h : Fine C U G s) (hp : o = .ok () → P s.k.inst) : After C U G P (check o s) := by
  rcases o with u | e | _
  · exact .go h (hp rfl)
  · exact .stop h
  · exact .stop h

theorem Fine.mem {C : Codec} {U : Unicode} {s : Cmd} (h : Fine C U G s) (k : Krypto) (p : List Printed) : Fine C U G { s with k := k, printed := p } := ⟨h.disk, h.touched⟩

theorem Fine.saved {C : Codec} (hC : C.Lawful) {E : PwEnv} {U : Unicode} {W : World} {s : Cmd} {k : Krypto} {r : SaveRun} (h : Fine C U G s) (hs : save C E W s.disk k = some r)
    (hi : Kept U G k.inst) : r.k.inst = k.inst ∧ Fine C U G (s.saved r) := by
  obtain ⟨a, b, c⟩ := save_sound hC hs hi h.disk
  refine ⟨a, c, ?_⟩
  intro t ht
  rcases List.mem_append.1 ht with ht | ht
  · exact h.touched t ht
  · rw [List.mem_singleton.1 ht]; exact b

theorem saveStep_after {C : Codec} (hC : C.Lawful) {E : PwEnv} {U : Unicode} {P : Inst → Prop} {W : World} {s : Cmd} {q : Course} (hq : saveStep C E W s = some q) (h : Fine C U G s)
    (hi : Kept U G s.k.inst) (hp : P s.k.inst) : After C U G P q := by
  unfold saveStep at hq
  rcases hs : save C E W s.disk s.k with _ | r
  · rw [hs] at hq; cases hq
  rw [hs] at hq
  simp only [Option.map_some, Option.some.injEq] at hq
  rw [← hq]
  obtain ⟨a, b⟩ := h.saved hC hs hi
  refine check_after b (fun _ => ?_)
  show P r.k.inst
  rw [a]; exact hp

theorem openStore_after {C : Codec} {E : PwEnv} {U : Unicode} {W : World} {a : Access} {file : List Nat} {disk : Disk} (hd : DiskOk C U G disk) {q : Course}
    (hq : openStore C E W a file disk = some q) : After C U G (fun i => KeysFine U G i ∧ MsgsFine U G i) q := by
  have hf : ∀ k, Fine C U G ⟨disk, k, [], []⟩ := fun k => ⟨hd, by simp⟩
  rcases openStore_cases hq with ⟨o, k, -, rfl⟩ | ⟨k, -, hl, hop, rfl⟩
  · exact .stop (hf k)
  · have hi := load_kept hd (prepared_blank E a file) hl
    exact .go (hf k) ⟨⟨hop.apart.storeOk hi.names, hi⟩, ⟨load_keyIds hl, hi⟩⟩

theorem output_after {α : Type} {C : Codec} {U : Unicode} {W : World} {type : Option (List Nat)} {render : OutKind → List α → Option (List Nat)} (hr : Readable C render)
    {file : Option (List Nat)} {items : List α} {s : Cmd} (h : Fine C U G s) : After C U G (fun _ => True) (outputStep W type render file items s) := by
  have hw : ∀ kind file body, render kind items = some body → After C U G (fun _ => True) (writeOutput W file body s) := by
    intro kind file body hb
    have hs : ∀ n, Sound C U G (body.take n) := fun n => Opaque.sound (hr kind items body hb n)
    unfold writeOutput
    split
    · exact .stop h
    · dsimp only
      have hf : ∀ n, Fine C U G { s with disk := s.disk.set file (body.take n), touched := s.touched ++ [⟨file, (List.range (n + 1)).map body.take⟩] } := by
        intro n
        refine ⟨h.disk.set (hs n), ?_⟩
        intro t ht
        rcases List.mem_append.1 ht with ht | ht
        · exact h.touched t ht
        · rw [List.mem_singleton.1 ht]
          intro c hc
          obtain ⟨j, -, rfl⟩ := List.mem_map.1 hc
          exact hs j
      split <;> split
      · exact .stop (hf _)
      · exact .go (hf _) trivial
      · exact .stop (hf _)
      · exact .go (hf _) trivial
  unfold outputStep
  split
  · exact .go h trivial
  split
  · exact .stop h
  split
  · exact .stop h
  · split
    · exact .stop h
    · split
      · exact .stop h
      · exact hw _ _ _ (by assumption)
  · split
    · exact .go h trivial
    · split
      · exact .stop h
      · exact hw _ _ _ (by assumption)

theorem keysCommand_after {C : Codec} (hC : C.Lawful) {E : PwEnv} {U : Unicode} {V : KeysEnv} (hr : Readable C V.render) {o : KeysCmd} {disk : Disk} {r : Course}
    (h : keysCommand C E U V o disk = some r) :
    ∃ made, InSequence made (wordLetters V.tape) ∧ ∀ G : Runes → Runes → Prop, (∀ p ∈ made, G p.1 p.2) → DiskOk C U G disk → Fine C U G r.state := by
  obtain ⟨made, hseq, hmade⟩ : ∃ made, InSequence made (wordLetters V.tape) ∧
      ∀ s, andThen (openStore C E V.loadW o.access o.file disk) (keysDelete C E U V o) = some (.go s) → ∀ n, o.newKeys = some n → ∀ oc i t,
        generateKeys U V.clock V.now n o.expire o.filter.keepers s.k.inst V.tape = some (oc, i, t) → ∀ x ∈ i.keys, x ∈ s.k.inst.keys ∨ (x.id.val, x.runes) ∈ made := by
    rcases hx : andThen (openStore C E V.loadW o.access o.file disk) (keysDelete C E U V o) with _ | s | ⟨oc, s⟩
    · exact ⟨[], .nil _, by simp⟩
    · obtain ⟨made, h1, h2⟩ := generate_made U V.clock V.now (o.newKeys.getD 0) o.expire o.filter.keepers s.k.inst V.tape
      refine ⟨made, h1, ?_⟩
      intro s' hs n hn oc i t hg
      simp only [Option.some.injEq, Course.go.injEq] at hs
      subst hs
      rw [hn] at h2
      exact h2 oc i t hg
    · exact ⟨[], .nil _, by simp⟩
  refine ⟨made, hseq, fun G hG hd => ?_⟩
  unfold keysCommand at h
  split at h
  · simp only [Option.some.injEq] at h
    rw [← h]
    exact ⟨hd, by simp [Course.state]⟩
  refine After.fine (P := fun _ => True) ?_
  refine andThen_after (P := fun _ => True) h (fun q hq => ?_) (fun s hs _ q hq => by simp only [Option.some.injEq] at hq; rw [← hq]; exact output_after hr hs)
  refine andThen_after (P := KeysFine U G) hq (fun q hq => ?_) (fun s hs hp q hq => ?_)
  swap
  · simp only [Option.some.injEq] at hq
    rw [← hq]
    unfold keysList
    split
    · split
      · exact .stop hs
      · dsimp only
        split
        · exact .stop hs
        · exact .go (hs.mem _ _) trivial
    · exact .go hs trivial
  refine andThen_after (P := KeysFine U G) hq (fun q hq => ?_) (fun s hs hp q hq => ?_)
  swap
  · unfold keysExport at hq
    split at hq
    · simp only [Option.some.injEq] at hq; rw [← hq]; exact .go hs hp
    split at hq
    · simp only [Option.some.injEq] at hq; rw [← hq]; exact .stop hs
    rename_i f _ _
    rcases hsv : save C E V.exportW s.disk (exportKeys (keyFilter U V.now o.filter) [withPersistence f, withOverwrite o.yes] s.k) with _ | sr
    · rw [hsv] at hq; cases hq
    rw [hsv] at hq
    simp only [Option.map_some, Option.some.injEq] at hq
    rw [← hq]
    have hi : Kept U G (exportKeys (keyFilter U V.now o.filter) [withPersistence f, withOverwrite o.yes] s.k).inst := by
      refine ⟨⟨hp.order.settings.groupSize, hp.order.settings.keyLength, hp.order.settings.columns, hp.order.settings.keyColumns⟩, ?_, ?_, List.nodup_nil, ?_, hp.order.callSign⟩
      · exact List.Pairwise.sublist (List.Sublist.map _ List.filter_sublist) hp.order.names
      · exact fun k hk => hp.order.keys k (List.mem_filter.1 hk).1
      · intro m hm; cases hm
    obtain ⟨-, b⟩ := hs.saved hC hsv hi
    exact check_after ⟨b.disk, b.touched⟩ (fun _ => hp)
  refine andThen_after (P := KeysFine U G) hq (fun q hq => ?_) (fun s hs hp q hq => ?_)
  swap
  · unfold keysImport at hq
    split at hq
    · simp only [Option.some.injEq] at hq; rw [← hq]; exact .go hs hp
    split at hq
    · simp only [Option.some.injEq] at hq; rw [← hq]; exact .stop hs
    rename_i f _ _
    split at hq
    · cases hq
    rename_i oc n k hf
    have hk : KeysFine U G k.inst := by
      unfold importFrom at hf
      have hinc : (newIncoming U s.k [.persistence f, .interactive true]) = ⟨incomingFor f, false, false⟩ := rfl
      rw [hinc] at hf
      dsimp only at hf
      rcases hl : load C E V.readW s.disk (incomingFor f) with _ | ⟨u | e | _, j⟩
      · rw [hl] at hf; cases hf
      · rw [hl] at hf
        simp only [Option.some.injEq, Prod.mk.injEq] at hf
        obtain ⟨-, -, rfl⟩ := hf
        have hj := load_kept hs.disk (k := incomingFor f) ⟨newBase_blank.keys, newBase_blank.messages, newBase_blank.callSign, newBase_blank.spareKeys, newBase_blank.spareMsgs⟩ hl
        exact hp.importKeys hj.keys
      · rw [hl] at hf
        simp only [Option.some.injEq, Prod.mk.injEq] at hf
        obtain ⟨-, -, rfl⟩ := hf
        exact hp
      · rw [hl] at hf
        simp only [Option.some.injEq, Prod.mk.injEq] at hf
        obtain ⟨-, -, rfl⟩ := hf
        exact hp
    refine andThen_after (P := KeysFine U G) hq (fun q hq => ?_) (fun s hs hp q hq => saveStep_after hC hq hs hp.order hp)
    simp only [Option.some.injEq] at hq
    rw [← hq]
    exact check_after (hs.mem k s.printed) (fun _ => hk)
  refine andThen_after_eq (P := KeysFine U G) hq (fun q hq => ?_) (fun s hx hs hp q hq => ?_)
  swap
  · unfold keysNew at hq
    split at hq
    · simp only [Option.some.injEq] at hq; rw [← hq]; exact .go hs hp
    split at hq
    · split at hq
      · cases hq
      · rename_i oc inst t hg
        refine andThen_after (P := KeysFine U G) hq (fun q hq => ?_) (fun s hs hp q hq => saveStep_after hC hq hs hp.order hp)
        simp only [Option.some.injEq] at hq
        rw [← hq]
        exact check_after (hs.mem _ s.printed) (fun _ => hp.generate hg (fun x hx' => (hmade s hx _ (by assumption) _ _ _ hg x hx').imp_right (hG _)))
    · simp only [Option.some.injEq] at hq; rw [← hq]; exact .go hs hp
  refine andThen_after (P := KeysFine U G) hq (fun q hq => ?_) (fun s hs hp q hq => ?_)
  · have := openStore_after hd hq
    cases this with
    | go a b => exact .go a b.1
    | stop a => exact .stop a
  · unfold keysDelete at hq
    have fin : ∀ n i, KeysFine U G i → (if n > 0 then saveStep C E V.deleteW { s with k := { s.k with inst := i } } else some (.go { s with k := { s.k with inst := i } })) = some q →
        After C U G (KeysFine U G) q := by
      intro n i hi hq
      split at hq
      · exact saveStep_after hC hq (hs.mem _ s.printed) hi.order hi
      · simp only [Option.some.injEq] at hq; rw [← hq]; exact .go (hs.mem _ s.printed) hi
    split at hq
    · split at hq
      · simp only [Option.some.injEq] at hq; rw [← hq]; exact .stop hs
      dsimp only at hq
      split at hq
      · split at hq
        · simp only [Option.some.injEq] at hq; rw [← hq]; exact .stop hs
        split at hq
        · simp only [Option.some.injEq] at hq; rw [← hq]; exact .stop hs
        split at hq
        · exact fin _ _ hp.bySummary hq
        · exact fin 0 _ hp hq
      · exact fin _ _ (hp.deleteKey _ _) hq
    · simp only [Option.some.injEq] at hq; rw [← hq]; exact .go hs hp

theorem messagesCommand_after {C : Codec} (hC : C.Lawful) {E : PwEnv} {U : Unicode} {V : MsgsEnv} (hr : Readable C V.render) {o : MsgsCmd} {disk : Disk} (hd : DiskOk C U G disk) {r : Course}
    (h : messagesCommand C E U V o disk = some r) : Fine C U G r.state := by
  unfold messagesCommand at h
  split at h
  · simp only [Option.some.injEq] at h
    rw [← h]
    exact ⟨hd, by simp [Course.state]⟩
  refine After.fine (P := fun _ => True) ?_
  refine andThen_after (P := fun _ => True) h (fun q hq => ?_) (fun s hs _ q hq => by simp only [Option.some.injEq] at hq; rw [← hq]; exact output_after hr hs)
  refine andThen_after (P := fun _ => True) hq (fun q hq => ?_) (fun s hs _ q hq => ?_)
  swap
  · simp only [Option.some.injEq] at hq
    rw [← hq]
    unfold messagesList
    split
    · split
      · exact .stop hs
      · split
        · exact .stop hs
        · exact .stop hs
        · dsimp only
          split
          · exact .stop (hs.mem _ _)
          · exact .go (hs.mem _ _) trivial
    · exact .go hs trivial
  refine andThen_after (P := MsgsFine U G) hq (fun q hq => ?_) (fun s hs hp q hq => ?_)
  swap
  · unfold messagesNew at hq
    split at hq
    · split at hq
      · simp only [Option.some.injEq] at hq; rw [← hq]; exact .stop hs
      split at hq
      · cases hq
      · simp only [Option.some.injEq] at hq; rw [← hq]; exact .stop (hs.mem _ _)
      · simp only [Option.some.injEq] at hq; rw [← hq]; exact .stop (hs.mem _ _)
      · rename_i m inst t hn
        exact saveStep_after hC hq (hs.mem _ _) (hp.order.newMessage hn) trivial
    · simp only [Option.some.injEq] at hq; rw [← hq]; exact .go hs trivial
  refine andThen_after (P := MsgsFine U G) hq (fun q hq => ?_) (fun s hs hp q hq => ?_)
  · have := openStore_after hd hq
    cases this with
    | go a b => exact .go a b.2
    | stop a => exact .stop a
  · unfold messagesDelete at hq
    have fin : ∀ n i, MsgsFine U G i → (if n > 0 then saveStep C E V.deleteW { s with k := { s.k with inst := i } } else some (.go { s with k := { s.k with inst := i } })) = some q →
        After C U G (MsgsFine U G) q := by
      intro n i hi hq
      split at hq
      · exact saveStep_after hC hq (hs.mem _ s.printed) hi.order hi
      · simp only [Option.some.injEq] at hq; rw [← hq]; exact .go (hs.mem _ s.printed) hi
    split at hq
    · split at hq
      · simp only [Option.some.injEq] at hq; rw [← hq]; exact .stop hs
      dsimp only at hq
      split at hq
      · split at hq
        · simp only [Option.some.injEq] at hq; rw [← hq]; exact .stop hs
        · simp only [Option.some.injEq] at hq; rw [← hq]; exact .stop hs
        · rename_i inst hdr lines hsum
          have hi := hp.summary hsum
          split at hq
          · simp only [Option.some.injEq] at hq; rw [← hq]; exact .stop (hs.mem _ _)
          split at hq
          · simp only [Option.some.injEq] at hq; rw [← hq]; exact .stop (hs.mem _ _)
          split at hq
          · exact fin _ _ hi.bySummary hq
          · exact fin 0 _ hi hq
      · exact fin _ _ (hp.delete _ _) hq
    · simp only [Option.some.injEq] at hq; rw [← hq]; exact .go hs hp

/-- a section that changes neither files nor the store -/
theorem check_inst {C : Codec} {U : Unicode} {o : Outcome Unit} {s : Cmd} (k : Krypto) (hs : Fine C U G s) (hi : Kept U G s.k.inst) (hk : k.inst = s.k.inst) {q : Course}
    (hq : some (check o { s with k := k }) = some q) : After C U G (Kept U G) q := by
  simp only [Option.some.injEq] at hq
  rw [← hq]
  exact check_after (hs.mem k s.printed) (fun _ => by show Kept U G k.inst; rw [hk]; exact hi)

theorem setNewSalt_inst (n : Option (List Nat)) (k : Krypto) : (setNewSalt n k).2.inst = k.inst := by
  unfold setNewSalt
  split
  · rfl
  · rename_i t
    obtain ⟨a, e⟩ := setSalt_frame (if t = ascii "default" then defaultSalt else t) k
    rw [e]

theorem askNewPFK_inst {E : PwEnv} {V : PfkEnv} {k k' : Krypto} {o : Outcome Unit} (h : askNewPFK E V k = some (o, k')) : k'.inst = k.inst := by
  unfold askNewPFK at h
  split at h
  · cases h
  split at h
  · cases h; rfl
  · cases h; rfl
  · rename_i pw _
    simp only [Option.some.injEq, Prod.mk.injEq] at h
    obtain ⟨a, e⟩ := derive_frame E false V.noise (some ⟨pw, false⟩) k
    rw [← h.2, e]

theorem changeFileKey_after {C : Codec} (hC : C.Lawful) {E : PwEnv} {U : Unicode} {V : PfkEnv} {o : PfkCmd} {s : Cmd} (hs : Fine C U G s) (hi : Kept U G s.k.inst) {r : Course}
    (h : changeFileKey C E V o s = some r) : After C U G (Kept U G) r := by
  have hsave : ∀ (s : Cmd) q, Fine C U G s → Kept U G s.k.inst → saveStep C E V.saveW s = some q → After C U G (Kept U G) q := fun s q hs hi hq => saveStep_after hC hq hs hi hi
  have hdec : ∀ (yes : Bool) (s : Cmd) (next : Cmd → Option Course) q, Fine C U G s → Kept U G s.k.inst → unlessDeclined V yes s next = some q →
      (next s = some q → After C U G (Kept U G) q) → After C U G (Kept U G) q := by
    intro yes s next q hs hi hq hn
    unfold unlessDeclined at hq
    split at hq
    · exact hn hq
    split at hq
    · cases hq; exact .stop hs
    · cases hq; exact .stop hs
    · exact hn hq
  unfold changeFileKey at h
  dsimp only at h
  refine andThen_after (P := Kept U G) h (fun q hq => check_inst _ hs hi (setNewSalt_inst _ _) hq) ?_
  clear h hs hi s
  intro s hs hi q hq
  split at hq
  · cases hq; exact .stop hs
  split at hq
  · cases hq; exact .stop hs
  split at hq
  · refine hdec _ _ _ _ hs hi hq (fun hq => ?_)
    split at hq
    · cases hq; exact .stop hs
    · cases hq; exact .stop hs
    · rename_i t _
      obtain ⟨a, e⟩ := setPFK_frame t s.k
      exact andThen_after (P := Kept U G) hq (fun q hq => check_inst _ hs hi (by rw [e]) hq) (fun s hs hi q hq => hsave _ q (hs.mem s.k (s.printed ++ [.text t])) hi hq)
  split at hq
  · rename_i pw _
    obtain ⟨a, e⟩ := setPassword_frame E pw s.k
    exact andThen_after (P := Kept U G) hq (fun q hq => check_inst _ hs hi (by rw [e]) hq) (fun s hs hi q hq => hdec _ _ _ _ hs hi hq (hsave _ q hs hi))
  split at hq
  · rename_i t _
    obtain ⟨a, e⟩ := setPFK_frame t s.k
    exact andThen_after (P := Kept U G) hq (fun q hq => check_inst _ hs hi (by rw [e]) hq) (fun s hs hi q hq => hdec _ _ _ _ hs hi hq (hsave _ q hs hi))
  split at hq
  · cases hq
  · rename_i oc k hk
    exact andThen_after (P := Kept U G) hq (fun q hq => check_inst _ hs hi (askNewPFK_inst hk) hq) (fun s hs hi q hq => hsave _ q hs hi hq)

theorem pfkCommand_after {C : Codec} (hC : C.Lawful) {E : PwEnv} {U : Unicode} {V : PfkEnv} {o : PfkCmd} {disk : Disk} (hd : DiskOk C U G disk) {r : Course}
    (h : pfkCommand C E V o disk = some r) : Fine C U G r.state := by
  have h0 : ∀ k p, Fine C U G ⟨disk, k, [], p⟩ := fun k p => ⟨hd, by simp⟩
  unfold pfkCommand at h
  dsimp only at h
  split at h
  · cases h; exact h0 _ _
  split at h
  · refine After.fine (P := fun _ => True) ?_
    have hc : ∀ (o : Outcome Unit) (s : Cmd) q, Fine C U G s → some (check o s) = some q → After C U G (fun _ => True) q := by
      intro o s q hs hq
      simp only [Option.some.injEq] at hq
      rw [← hq]
      exact check_after hs (fun _ => trivial)
    unfold generatePFKCommand at h
    dsimp only at h
    refine andThen_after (P := fun _ => True) h (fun q hq => hc _ _ q (h0 _ _) hq) (fun s hs _ q hq => ?_)
    refine andThen_after (P := fun _ => True) hq (fun q hq => hc _ _ q (hs.mem _ _) hq) (fun s hs _ q hq => ?_)
    split at hq
    · split at hq
      · cases hq; exact .go (hs.mem _ _) trivial
      · cases hq; exact .stop hs
      · cases hq; exact .stop hs
    · split at hq
      · exact andThen_after (P := fun _ => True) hq (fun q hq => hc _ _ q (hs.mem _ _) hq) (fun s hs _ q hq => by cases hq; exact .go (hs.mem _ _) trivial)
      · split at hq
        · cases hq
        · exact andThen_after (P := fun _ => True) hq (fun q hq => hc _ _ q (hs.mem _ _) hq) (fun s hs _ q hq => by cases hq; exact .go (hs.mem _ _) trivial)
  split at h
  · split at h
    · cases h; exact h0 _ _
    · cases h; exact h0 _ _
    · cases h; exact h0 _ _
  split at h
  · cases h; exact h0 _ _
  · rename_i file _
    refine After.fine (P := Kept U G) ?_
    refine andThen_after (P := Kept U G) h (fun q hq => ?_) (fun s hs hi q hq => changeFileKey_after hC hs hi hq)
    obtain ⟨x, y, hf⟩ := preparedOld_frame E o.access o.old file
    rcases andThen_check hq with ⟨-, hq⟩ | ⟨-, rfl⟩
    swap
    · exact .stop (h0 _ _)
    unfold loadStep at hq
    dsimp only at hq
    rw [hf] at hq
    rcases hl : load C E V.loadW disk { newBase with persistence := file, interactive := true, salt := x, pfk := y } with _ | ⟨oc, k⟩
    · rw [hl] at hq; cases hq
    rw [hl] at hq
    simp only [Option.map_some, Option.some.injEq] at hq
    rw [← hq]
    refine check_after (h0 _ _) (fun hoc => ?_)
    subst hoc
    exact load_kept (k := { newBase with persistence := file, interactive := true, salt := x, pfk := y }) hd
      ⟨newBase_blank.keys, newBase_blank.messages, newBase_blank.callSign, newBase_blank.spareKeys, newBase_blank.spareMsgs⟩ hl

theorem initStore_after {C : Codec} (hC : C.Lawful) {E : PwEnv} {U : Unicode} {V : InitEnv} {a : Access} {file : List Nat} {yes : Bool} {c : Runes} {keys : Int}
    {expire : Runes} {keepers : List Runes} {keyLength groupSize keyColumns columns : Int} {disk : Disk} {r : Course}
    (h : initStore C E U V a file yes c keys expire keepers keyLength groupSize keyColumns columns disk = some r) :
    ∃ made, InSequence made (wordLetters V.tape) ∧ ∀ G : Runes → Runes → Prop, (∀ p ∈ made, G p.1 p.2) → DiskOk C U G disk → Fine C U G r.state := by
  unfold initStore at h
  dsimp only at h
  generalize hk0 : new [withPersistence file, withInteractive true, withKeyLength keyLength.toNat, withGroupSize groupSize.toNat, withKeyColumns keyColumns.toNat,
    withColumns columns.toNat, withCallSign U c, withOverwrite yes] = k0 at h
  have hi : k0.inst.keys = [] ∧ k0.inst.messages = [] ∧ (k0.inst.callSign = [] ∨ 2 ≤ k0.inst.callSign.length) := by
    rw [← hk0]
    simp only [new, List.foldl_cons, List.foldl_nil, withOverwrite, withCallSign]
    unfold setCallSign
    dsimp only
    split
    · exact ⟨rfl, rfl, .inl rfl⟩
    · rename_i hl
      exact ⟨rfl, rfl, .inr (by dsimp only; omega)⟩
  obtain ⟨x, y, hf⟩ := setSaltAndPFK_frame E a k0
  generalize setSaltAndPFK E a k0 = p at h hf
  have hpi : p.2.inst = k0.inst := by rw [hf]
  rw [← hpi] at hi
  clear hpi hf hk0
  obtain ⟨made, hseq, hmade⟩ := generate_made U V.clock V.now keys (if expire.length > 0 then some (V.parse expire) else none) keepers p.2.inst V.tape
  refine ⟨made, hseq, fun G hG hd => ?_⟩
  have h0 : ∀ k, Fine C U G ⟨disk, k, [], []⟩ := fun k => ⟨hd, by simp⟩
  refine After.fine (P := KeysFine U G) ?_
  rcases andThen_check h with ⟨-, h⟩ | ⟨-, rfl⟩
  swap
  · exact .stop (h0 _)
  rcases andThen_check h with ⟨has, h⟩ | ⟨-, rfl⟩
  swap
  · exact .stop (h0 _)
  dsimp only at h has
  obtain ⟨i1, i2, i3⟩ := hi
  have hfine : KeysFine U G p.2.inst := by
    refine ⟨⟨by rw [i1]; exact List.Pairwise.nil, by rw [i1]; exact List.nodup_nil, by rw [i1]; simp⟩, ⟨?_, by rw [i1]; exact List.Pairwise.nil, by rw [i1]; simp, by rw [i2]; exact List.nodup_nil,
      by rw [i2]; simp, i3⟩⟩
    unfold assertSettings at has
    split at has
    · simp at has
    split at has
    · simp at has
    split at has
    · simp at has
    split at has
    · simp at has
    split at has
    · simp at has
    exact ⟨by omega, by omega, by omega, by omega⟩
  split at h
  · split at h
    · cases h
    · rename_i oc inst t hg
      refine andThen_after (P := KeysFine U G) h (fun q hq => ?_) (fun s hs hp q hq => saveStep_after hC hq hs hp.order hp)
      simp only [Option.some.injEq] at hq
      rw [← hq]
      exact check_after (h0 _) (fun _ => hfine.generate hg (fun x hx => (hmade _ _ _ hg x hx).imp_right (hG _)))
  · exact saveStep_after hC h (h0 _) hfine.order hfine

theorem initCommand_after {C : Codec} (hC : C.Lawful) {E : PwEnv} {U : Unicode} {V : InitEnv} {o : InitCmd} {disk : Disk} {r : Course}
    (h : initCommand C E U V o disk = some r) :
    ∃ made, InSequence made (wordLetters V.tape) ∧ ∀ G : Runes → Runes → Prop, (∀ p ∈ made, G p.1 p.2) → DiskOk C U G disk → Fine C U G r.state := by
  unfold initCommand at h
  dsimp only at h
  split at h
  · cases h; exact ⟨[], .nil _, fun G _ hd => ⟨hd, by simp [Course.state]⟩⟩
  split at h
  · split at h
    · cases h; exact ⟨[], .nil _, fun G _ hd => ⟨hd, by simp [Course.state]⟩⟩
    · exact initStore_after hC h
  · exact initStore_after hC h

/-- a step makes some keys, and leaves only files with these keys and keys that were there before -/
theorem fileStep_after {C : Codec} (hC : C.Lawful) {U : Unicode} {d d' : Disk} {t : List Nat} (h : FileStep C U d t d') :
    ∃ made, InSequence made (wordLetters t) ∧ ∀ G : Runes → Runes → Prop, (∀ p ∈ made, G p.1 p.2) → DiskOk C U G d → DiskOk C U G d' := by
  have left : ∀ {G : Runes → Runes → Prop} {d d' : Disk} {r : Course}, DiskOk C U G d → MayLeave d r d' → Fine C U G r.state → DiskOk C U G d' := by
    intro G d d' r hd hm hf
    rcases hm with rfl | hm
    · exact hf.disk
    · intro p c hp
      rcases hm p with e | ⟨t, ht, rfl, c', hc', e⟩
      · rw [e] at hp; exact hd p c hp
      · rw [e, Option.some.injEq] at hp
        subst hp
        exact hf.touched t ht _ hc'
  cases h with
  | init hr hm =>
    obtain ⟨made, h1, h2⟩ := initCommand_after hC hr
    exact ⟨made, h1, fun G hG hd => left hd hm (h2 G hG hd)⟩
  | keys hr hp hm =>
    obtain ⟨made, h1, h2⟩ := keysCommand_after hC hp hr
    exact ⟨made, h1, fun G hG hd => left hd hm (h2 G hG hd)⟩
  | messages hr hp hm => exact ⟨[], .nil _, fun G _ hd => left hd hm (messagesCommand_after hC hp hd hr)⟩
  | pfk hr hm => exact ⟨[], .nil _, fun G _ hd => left hd hm (pfkCommand_after hC hd hr)⟩
  | copy hc => exact ⟨[], .nil _, fun G _ hd => hd.set (hd _ _ hc)⟩
  | foreign hc => exact ⟨[], .nil _, fun G _ hd => hd.set hc.sound⟩
  | remove =>
    refine ⟨[], .nil _, fun G _ hd => ?_⟩
    intro q c hq
    dsimp only at hq
    split at hq
    · cases hq
    · exact hd q c hq

theorem Sound.mono {C : Codec} {U : Unicode} {G' : Runes → Runes → Prop} {c : List Nat} (h : Sound C U G c) (hG : ∀ a b, G a b → G' a b) : Sound C U G' c := by
  intro key w hk hd
  obtain ⟨i, hi, e⟩ := h key w hk hd
  exact ⟨i, hi.mono hG, e⟩

theorem history_after {C : Codec} (hC : C.Lawful) {U : Unicode} {d0 d : Disk} {ts : List (List Nat)} (h0 : ∀ p c, d0 p = some c → Opaque C c) (h : History C U d0 ts d) :
    ∃ made : List (List (Runes × Runes)), List.Forall₂ (fun t m => InSequence m (wordLetters t)) ts made ∧ DiskOk C U (fun id pad => (id, pad) ∈ made.flatten) d := by
  induction h with
  | start => exact ⟨[], .nil, fun p c hp => (h0 p c hp).sound⟩
  | step _ hs ih =>
    obtain ⟨made, h1, h2⟩ := ih
    obtain ⟨m, h3, h4⟩ := fileStep_after hC hs
    refine ⟨made ++ [m], List.rel_append h1 (.cons h3 .nil), h4 _ ?_ (fun p c hp => (h2 p c hp).mono ?_)⟩
    · intro p hp; simp [hp]
    · intro a b hab
      rw [List.flatten_append]
      exact List.mem_append_left _ hab

end K431
