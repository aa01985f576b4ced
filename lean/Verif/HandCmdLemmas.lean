import Verif.StoreCmdLemmas
import Verif.PropsHandover

/-! # Helper lemmas: `keys --import` and `keys --export` -/

namespace K431
open Spec

/-! ## Loaded stores -/

theorem mergeKeys_keepers : ∀ (ws : List WireKey) (a : Nat) (cells : List Key), (∀ x ∈ cells, x = Key.zero) → 1 ≤ a →
    ∀ x ∈ (mergeKeys a cells ws).1, ∀ s ∈ x.keepers, s.addr < (mergeKeys a cells ws).2
  | [], a, cells, _, _ => by simp [mergeKeys]
  | w :: ws, a, cells, h, ha => by
    have ih := mergeKeys_keepers ws (a + 1 + (w.keepers.getD []).length) cells.tail (tail_all h) (by omega)
    obtain ⟨h1, -⟩ := mergeKeys_sep ws (a + 1 + (w.keepers.getD []).length) cells.tail (tail_all h) (by omega)
    simp only [mergeKeys, headD_zero h]
    obtain ⟨-, j⟩ := mergeKey_sep a w
    intro x hx s hs
    rcases List.mem_cons.1 hx with rfl | hx
    · have := j s hs; omega
    · exact ih x hx s hs

/-- the keepers' arrays of a loaded store -/
theorem load_keepers {C : Codec} {E : PwEnv} {W : World} {a : Access} {file : List Nat} {disk : Disk} {k : Krypto}
    (hl : load C E W disk (prepared E a file).2 = some (.ok (), k)) : ∀ x ∈ k.inst.keys, ∀ s ∈ x.keepers, s.addr < k.inst.nextAddr := by
  obtain ⟨x, y, hf⟩ := prepared_frame E a file
  rw [hf] at hl
  obtain ⟨path, key, c, w, h1, h2, h3, h4, rfl, -⟩ := load_ok hl
  have hb : K431.Blank ({ newBase with persistence := path, interactive := true, salt := x, pfk := some key } : Krypto) :=
    ⟨newBase_blank.keys, newBase_blank.messages, newBase_blank.callSign, newBase_blank.spareKeys, newBase_blank.spareMsgs⟩
  obtain ⟨cells, hz, e1, mcells, hmz, e2, e3⟩ := gobDecode_normal hb w
  have h := mergeKeys_keepers (w.keys.getD []) 1 cells hz (Nat.le_refl 1)
  obtain ⟨b1, -⟩ := mergeMsgs_sep (w.messages.getD []) (mergeKeys 1 cells (w.keys.getD [])).2 mcells hmz
    (Nat.le_trans (Nat.le_refl 1) (mergeKeys_sep (w.keys.getD []) 1 cells hz (Nat.le_refl 1)).1)
  intro z hz' s hs
  have e1' : (gobDecode w { newBase with persistence := path, interactive := true, salt := x, pfk := some key }).inst.keys = (mergeKeys 1 cells (w.keys.getD [])).1 := e1
  have e3' : (gobDecode w { newBase with persistence := path, interactive := true, salt := x, pfk := some key }).inst.nextAddr =
    (mergeMsgs (mergeKeys 1 cells (w.keys.getD [])).2 mcells (w.messages.getD [])).2 := e3
  dsimp only at hz' ⊢
  rw [e1'] at hz'
  rw [e3']
  exact Nat.lt_of_lt_of_le (h z hz' s hs) b1

/-- a loaded store does not replace keys without asking -/
theorem load_asks {C : Codec} {E : PwEnv} {W : World} {a : Access} {file : List Nat} {disk : Disk} {k : Krypto}
    (hl : load C E W disk (prepared E a file).2 = some (.ok (), k)) : k.overwriteKeys = false ∧ k.interactive = true := by
  obtain ⟨x, y, hf⟩ := prepared_frame E a file
  rw [hf] at hl
  obtain ⟨path, key, c, w, h1, h2, h3, h4, rfl, -⟩ := load_ok hl
  exact ⟨rfl, rfl⟩

/-! ## Importing into a store without shared arrays -/

theorem inFold_length {U : Unicode} {a : Runes} {l : List Runes} (h : InFold U a l) : ∃ b ∈ l, b.length = a.length := by
  obtain ⟨b, hb, hs⟩ := h
  refine ⟨b, hb, ?_⟩
  have := congrArg List.length hs
  simpa using this.symm

theorem import_apart {U : Unicode} {inst : Inst} (h : Apart inst) (hk : ∀ x ∈ inst.keys, ∀ s ∈ x.keepers, s.addr < inst.nextAddr)
    (hd : DistinctNames U (inst.keys.map (fun k => k.id.val))) (hg : inst.groupSize ≠ 0) (noise : Nat → Noise) (o : ImportOpts) (filter : Key → Bool) (ks : List Key) (call : Runes)
    (hd' : DistinctNames U (ks.map (fun k => k.id.val))) (hans : ∀ k ∈ ks, o.answer k ≠ none) :
    let acc := ks.filter (fun k => decide (Accepts U o filter inst.groupSize (inst.keys.map (fun k => k.id.val)) k))
    ∃ new keys nx, importKeys U noise o filter (.ok (ks, call)) inst = (.ok (), acc.length, { inst with keys := keys, nextAddr := nx }) ∧
      keys.Perm (inst.keys.filter (fun x => !decide (InFold U x.id.val (acc.map (fun k => k.id.val)))) ++ new) ∧
      List.Forall₂ (Imported U inst.callSign call) acc new := by
  intro acc
  obtain ⟨f, g, new, keys, nx, e1, e2, e3, e4, e5, e6⟩ := C39_partial U noise o filter ks call inst (h.storeOk hd) hk hd' hans
  have hf : ∀ x ∈ inst.keys.filter (fun x => !decide (InFold U x.id.val (acc.map (fun k => k.id.val)))), f x = x := by
    intro x hx
    obtain ⟨hx, hn⟩ := List.mem_filter.1 hx
    refine e5 x (fun y hy hr hs => ?_)
    have hne : y ≠ x := by
      rintro rfl
      simp only [Bool.not_eq_eq_eq_not, Bool.not_true, decide_eq_false_iff_not] at hn
      exact hn hr
    exact (pairwise_both (fun x y h => ⟨h.2, h.1⟩) h.keepers hy hx hne).1 hs
  have hg' : ∀ m ∈ inst.messages, g m.keyId = m.keyId := by
    intro m hm
    refine e6 m.keyId (fun y hy hr => h.empty m hm y hy ?_)
    intro hnil
    obtain ⟨b, hb, hlen⟩ := inFold_length hr
    obtain ⟨z, hz, rfl⟩ := List.mem_map.1 hb
    have := (of_decide_eq_true (List.mem_filter.1 hz).2).1
    rw [hnil] at hlen
    simp only [List.length_nil] at hlen
    omega
  refine ⟨new, keys, nx, ?_, ?_, e3⟩
  · rw [e1]
    have : inst.messages.map (fun m => { m with keyId := g m.keyId }) = inst.messages := by
      conv => rhs; rw [← List.map_id inst.messages]
      refine List.map_congr_left (fun m hm => ?_)
      rw [hg' m hm]; rfl
    rw [this]
  · refine e2.trans (List.Perm.of_eq ?_)
    congr 1
    conv => rhs; rw [← List.map_id (inst.keys.filter _)]
    exact List.map_congr_left hf

/-! ## Exporting -/

/-- `Save` with permission -/
theorem save_permitted {C : Codec} {E : PwEnv} {W : World} {disk : Disk} {k : Krypto} {path key : List Nat} (hr : Reads W k path)
    (hk : k.pfk = some key) (ho : disk path = none ∨ Permitted W k) :
    save C E W disk k = some (saveWrite C W key { k with persistence := path }) := by
  unfold save
  rw [if_neg (by simpa using hr.named), hr.path]
  dsimp only
  rw [if_neg (by simp [hr.stat])]
  have : saveKey C E W { k with persistence := path } = some (saveWrite C W key { k with persistence := path }) := by
    unfold saveKey; dsimp only; rw [hk]
  cases hd : disk path with
  | none => exact this
  | some c =>
    rcases ho with ho | ho | ⟨h1, h2, h3⟩
    · rw [ho] at hd; cases hd
    · dsimp only; rw [if_pos ho]; exact this
    · dsimp only
      split
      · exact this
      · rw [if_pos (by simp [h1, h2]), h3]; exact this

/-- `Save` without permission -/
theorem save_refused {C : Codec} {E : PwEnv} {W : World} {disk : Disk} {k : Krypto} {path : List Nat} {r : SaveRun} (hr : resolvePath W k.persistence = some path)
    (hd : disk path ≠ none) (ho : ¬ Permitted W k) (h : save C E W disk k = some r) : r.contents = [] := by
  rcases save_cases h with ⟨e, -⟩ | ⟨path', key, e1, -, -, e2, -⟩
  · exact e
  · rw [hr] at e1
    cases e1
    rcases e2 with e2 | e2
    · exact absurd e2 hd
    · exact absurd e2 ho

/-- the filter of the command looks at what is stored only -/
theorem keyFilter_same {U : Unicode} {now : Int} {o : KeyOpts} {x y : Key} (h : SameKey x y) : keyFilter U now o x = keyFilter U now o y := by
  have hn : x.names = y.names := h.keepers
  unfold keyFilter validOption isExpired isValid
  rw [h.id, hn, h.compromised, h.expires, h.used]

theorem forall₂_filter {α β : Type} {R : α → β → Prop} {p : α → Bool} {q : β → Bool} (h : ∀ a b, R a b → p a = q b) :
    ∀ {l : List α} {m : List β}, List.Forall₂ R l m → List.Forall₂ R (l.filter p) (m.filter q)
  | _, _, .nil => .nil
  | _, _, .cons (a := a) (b := b) hab as => by
    rw [List.filter_cons, List.filter_cons, h a b hab]
    split
    · exact .cons hab (forall₂_filter h as)
    · exact forall₂_filter h as

theorem forall₂_origin {α β : Type} {R : α → β → Prop} : ∀ {l : List α} {m : List β}, List.Forall₂ R l m → ∀ {y : β}, y ∈ m → ∃ x ∈ l, R x y
  | _, _, .nil, _, h => by cases h
  | _, _, .cons a as, _, hy => by
    rcases List.mem_cons.1 hy with rfl | hy
    · exact ⟨_, List.mem_cons_self, a⟩
    · obtain ⟨x, hx, hr⟩ := forall₂_origin as hy
      exact ⟨x, List.mem_cons_of_mem _ hx, hr⟩

theorem defaultSalt_decodes : ∃ salt, hexDecode defaultSalt = some salt ∧ 32 ≤ salt.length := by
  have h : (match hexDecode defaultSalt with | some s => decide (32 ≤ s.length) | none => false) = true := by decide +kernel
  split at h
  · exact ⟨_, by assumption, of_decide_eq_true h⟩
  · cases h

end K431
