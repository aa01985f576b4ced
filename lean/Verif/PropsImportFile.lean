import Verif.PersistEx

/-!
# C64: importing leaves the own key, salt and settings alone
-/

namespace K431

/-- **C64**, within its range: unless the options share the own pointers, `ImportKeys` leaves everything but keys and messages as it is, whatever happens; if the file
can not be loaded, these too. -/
theorem C64_partial {C : Codec} {E : PwEnv} {W : World} {U : Unicode} {noise : Nat → Noise} {answer : Key → Option Bool} {filter : Key → Bool}
    {opts : List Opt} {disk : Disk} {own own' : Krypto} {o : Outcome Unit} {n : Nat} (hopts : Opt.pfkOwn ∉ opts ∧ Opt.saltOwn ∉ opts)
    (h : importFrom C E W U noise answer filter opts disk own = some (o, n, own')) :
    ∃ ks ms nx, own' = { own with inst := { own.inst with keys := ks, messages := ms, nextAddr := nx } } := by
  obtain ⟨h1, h2⟩ := newIncoming_own (U := U) (own := own) hopts
  unfold importFrom at h
  dsimp only at h
  rw [h1, h2] at h
  split at h
  · simp at h
  · simp only [Option.some.injEq, Prod.mk.injEq] at h
    exact ⟨_, _, _, h.2.2.symm⟩
  · simp only [Option.some.injEq, Prod.mk.injEq] at h
    exact ⟨_, _, _, h.2.2.symm⟩
  · simp only [Option.some.injEq, Prod.mk.injEq] at h
    obtain ⟨-, -, h⟩ := h
    obtain ⟨ks, ms, nx, e⟩ := importKeys_frame U noise ⟨own.overwriteKeys, own.interactive && W.terminal, answer⟩ filter
      (.ok (‹Krypto›.inst.keys, ‹Krypto›.inst.callSign)) own.inst
    rw [e] at h
    exact ⟨ks, ms, nx, h.symm⟩

/-- **C64**, failures: if the file can not be loaded, the importing instance is exactly as before, whatever the options. -/
theorem C64_fails {C : Codec} {E : PwEnv} {W : World} {U : Unicode} {noise : Nat → Noise} {answer : Key → Option Bool} {filter : Key → Bool}
    {opts : List Opt} {disk : Disk} {own own' : Krypto} {o o' : Outcome Unit} {n : Nat} {k : Krypto}
    (hl : load C E W disk (newIncoming U own opts).k = some (o', k)) (ho : o' ≠ .ok ())
    (h : importFrom C E W U noise answer filter opts disk own = some (o, n, own')) : own' = own ∧ n = 0 ∧ o ≠ .ok () := by
  unfold importFrom at h
  dsimp only at h
  rw [hl] at h
  rcases o' with ⟨⟩ | e | _
  · exact absurd rfl ho
  · simp only [Option.some.injEq, Prod.mk.injEq] at h; exact ⟨h.2.2.symm, h.2.1.symm, by rw [← h.1]; simp⟩
  · simp only [Option.some.injEq, Prod.mk.injEq] at h; exact ⟨h.2.2.symm, h.2.1.symm, by rw [← h.1]; simp⟩

/-- **C64** is violated by the documented way to import with the own key and salt: whatever is imported, the own key and salt are empty afterwards, and the next
`Save` truncates the own file and panics, so that all keys are lost. -/
theorem C64_violated {C : Codec} (hC : C.Lawful) {E : PwEnv} {W : World} {U : Unicode} {noise : Nat → Noise} {answer : Key → Option Bool} {filter : Key → Bool}
    {disk : Disk} {own : Krypto} {file key salt : List Nat} {k : Krypto} {n : Nat → Nat}
    (hk : own.pfk = some key) (hkl : key.length = 32) (hs : own.salt = some salt) (hsl : 32 ≤ salt.length) (hn : W.noise = some n)
    (hl : load C E W disk (newIncoming U own [.persistence file, .pfkOwn, .saltOwn]).k = some (.ok (), k)) :
    ∃ o m own', importFrom C E W U noise answer filter [.persistence file, .pfkOwn, .saltOwn] disk own = some (o, m, own') ∧
      own'.pfk = some [] ∧ own'.salt = some [] ∧
      ∀ E' W' disk' path, own.overwrite = true → Reads W' own path → ∃ r, save C E' W' disk' own' = some r ∧ r.outcome = .panic ∧ Lost C (r.disk disk') path := by
  have h1 : (newIncoming U own [.persistence file, .pfkOwn, .saltOwn]).sharesPFK = true := by
    simp [newIncoming, Opt.apply, hk, withPFK, hkl]
  have h2 : (newIncoming U own [.persistence file, .pfkOwn, .saltOwn]).sharesSalt = true := by
    simp [newIncoming, Opt.apply, hs, withSalt, show ¬ salt.length < 32 by omega]
  generalize hi : newIncoming U own [.persistence file, .pfkOwn, .saltOwn] = inc at hl h1 h2
  obtain ⟨r, hr⟩ : ∃ r, r = importKeys U noise ⟨own.overwriteKeys, own.interactive && W.terminal, answer⟩ filter (.ok (k.inst.keys, k.inst.callSign)) own.inst := ⟨_, rfl⟩
  refine ⟨r.1, r.2.1, { own with inst := r.2.2, pfk := some [], salt := some [] }, ?_, rfl, rfl, ?_⟩
  · unfold importFrom
    dsimp only
    rw [hi, hl]
    dsimp only
    rw [h1, h2, ← hr, hk, hs, hn]
    rfl
  · intro E' W' disk' path ho hp
    obtain ⟨r, e1, e2, -, e4⟩ := save_short (E := E') (disk := disk') hC (k := { own with inst := r.2.2, pfk := some [], salt := some [] }) ⟨hp.named, hp.path, hp.stat, hp.opens⟩ (key := []) rfl (by simp) ho
    exact ⟨r, e1, e2, e4⟩

/-- non-vacuity: a file written by an export with the same key and salt is loaded by the documented call -/
example {C : Codec} (hC : C.Lawful) (E : PwEnv) : ∃ disk k, load C E exWorld disk
    (newIncoming unicode15 { exKrypto true [exPersistKey] with salt := some exPFK } [.persistence [1], .pfkOwn, .saltOwn]).k = some (.ok (), k) := by
  exact ⟨exDisk.set [1] (C.enc exPFK 0 (gobInst (exKrypto true [exPersistKey]).inst)), _, load_complete hC E rfl (by decide) (set_same _ _ _)⟩

end K431
