import Verif.Spec.Again
import Verif.Spec.Fields
import Verif.Proofs.Reading
import Verif.Proofs.AbstractUnique
/-
For C74: reading the same records again.
-/
namespace Pb
open Spec

/-! ### maps -/

/-- The key is in the map. -/
def HasKey (m : List (Key × Val)) (k : Key) : Prop := ∃ v, (k, v) ∈ m

theorem hasKey_assign {m : List (Key × Val)} {k k' : Key} {v : Val} (h : HasKey m k') : HasKey (mapAssign m k v) k' := by
  induction m with
  | nil => obtain ⟨_, h⟩ := h; cases h
  | cons e m ih =>
    obtain ⟨k1, v1⟩ := e
    obtain ⟨w, h⟩ := h
    simp only [mapAssign]
    split
    · rename_i he
      rcases List.mem_cons.mp h with h | h
      · cases h; exact ⟨v, by simp⟩
      · exact ⟨w, List.mem_cons_of_mem _ h⟩
    · rcases List.mem_cons.mp h with h | h
      · cases h; exact ⟨v1, by simp⟩
      · obtain ⟨w', h'⟩ := ih ⟨w, h⟩
        exact ⟨w', List.mem_cons_of_mem _ h'⟩

theorem hasKey_self (m : List (Key × Val)) (k : Key) (v : Val) : HasKey (mapAssign m k v) k := by
  induction m with
  | nil => exact ⟨v, by simp [mapAssign]⟩
  | cons e m ih =>
    obtain ⟨k1, v1⟩ := e
    simp only [mapAssign]
    split
    · rename_i he; subst he; exact ⟨v, by simp⟩
    · obtain ⟨w, h⟩ := ih; exact ⟨w, List.mem_cons_of_mem _ h⟩

theorem assign_twice (m : List (Key × Val)) (k : Key) (v w : Val) : mapAssign (mapAssign m k v) k w = mapAssign m k w := by
  induction m with
  | nil => simp [mapAssign]
  | cons e m ih =>
    obtain ⟨k1, v1⟩ := e
    by_cases h : k1 = k
    · simp [mapAssign, h]
    · simp [mapAssign, h, ih]

theorem assign_comm {m : List (Key × Val)} {k k' : Key} {v v' : Val} (hne : k ≠ k') (h : HasKey m k') :
    mapAssign (mapAssign m k v) k' v' = mapAssign (mapAssign m k' v') k v := by
  induction m with
  | nil => obtain ⟨_, h⟩ := h; cases h
  | cons e m ih =>
    obtain ⟨k1, v1⟩ := e
    by_cases h1 : k1 = k
    · subst h1
      simp [mapAssign, hne]
    · by_cases h2 : k1 = k'
      · subst h2
        simp [mapAssign, h1]
      · have : HasKey m k' := by
          obtain ⟨w, h⟩ := h
          rcases List.mem_cons.mp h with h | h
          · cases h; exact absurd rfl h2
          · exact ⟨w, h⟩
        simp [mapAssign, h1, h2, ih this]

/-- The assignments one after the other. -/
def assignAll (m : List (Key × Val)) (l : List (Key × Val)) : List (Key × Val) := l.foldl (fun m e => mapAssign m e.1 e.2) m

theorem hasKey_assignAll {l m : List (Key × Val)} {k : Key} (h : HasKey m k ∨ HasKey l k) : HasKey (assignAll m l) k := by
  induction l generalizing m with
  | nil =>
    rcases h with h | ⟨_, h⟩
    · exact h
    · cases h
  | cons e l ih =>
    refine ih ?_
    rcases h with h | ⟨w, h⟩
    · exact .inl (hasKey_assign h)
    · rcases List.mem_cons.mp h with h | h
      · subst h; exact .inl (hasKey_self _ _ _)
      · exact .inr ⟨w, h⟩

theorem assign_absorb {l : List (Key × Val)} {k : Key} {v : Val} : ∀ {m : List (Key × Val)}, (∀ e ∈ l, HasKey m e.1) →
    mapAssign (assignAll (mapAssign m k v) l) k v = mapAssign (assignAll m l) k v := by
  induction l with
  | nil => intro m _; exact assign_twice m k v v
  | cons e l ih =>
    intro m h
    obtain ⟨k1, v1⟩ := e
    show mapAssign (assignAll (mapAssign (mapAssign m k v) k1 v1) l) k v = mapAssign (assignAll (mapAssign m k1 v1) l) k v
    by_cases h1 : k = k1
    · subst h1
      rw [assign_twice]
    · rw [assign_comm h1 (h (k1, v1) (by simp))]
      exact ih fun e he => hasKey_assign (h e (List.mem_cons_of_mem _ he))

/-- Making the same assignments again changes nothing. -/
theorem assignAll_again (l m : List (Key × Val)) : assignAll (assignAll m l) l = assignAll m l := by
  have snoc : ∀ (l : List (Key × Val)) (e) (m), assignAll m (l ++ [e]) = mapAssign (assignAll m l) e.1 e.2 := by
    intro l e m; simp [assignAll]
  suffices h : ∀ r : List (Key × Val), assignAll (assignAll m r.reverse) r.reverse = assignAll m r.reverse by
    simpa using h l.reverse
  intro r
  induction r with
  | nil => rfl
  | cons e r ih =>
    rw [List.reverse_cons, snoc, snoc]
    rw [assign_absorb (fun e' he => hasKey_assignAll (.inr ⟨e'.2, he⟩)), ih]

/-! ### the records of one field -/

/-- One payload after the other. -/
inductive ReadAll (env : Env) (c : Codec) : Val → List Bytes → Val → Prop
  | nil (v) : ReadAll env c v [] v
  | cons (d ds u v w) : Reading env c u d v → ReadAll env c v ds w → ReadAll env c u (d :: ds) w

theorem declared_unique {fs : List Field} {n : Nat} {f g : Field} (h : Declared fs n f) (h' : Declared fs n g) : f = g := by
  have h1 := lookup_declared.mpr h
  rw [lookup_declared.mpr h'] at h1
  exact (Option.some.inj h1).symm

theorem declared_num {fs : List Field} {n : Nat} {f : Field} (h : Declared fs n f) : keyNumber f.tag.wiretag = n := by
  obtain ⟨_, _, _, h, _⟩ := h; exact h

theorem recs_slot {env : Env} {t : TypeId} (hd : DistinctSlots (env t).fields) {num : Nat} {f : Field}
    (hf : Declared (env t).fields num f) {rs : List (Nat × Nat × Bytes)} : ∀ {vs vs' : List Val} {old : Val},
    ReadingRecs env t vs rs vs' → vs[f.offset]? = some old →
      ∃ new, vs'[f.offset]? = some new ∧ ReadAll env f.codec old (payloadsFor num rs) new := by
  induction rs with
  | nil => intro vs vs' old h ho; cases h; exact ⟨old, ho, .nil _⟩
  | cons r rs ih =>
    intro vs vs' old h ho
    cases h with
    | unknown _ _ num' wt data _ _ hu h =>
      obtain ⟨new, h1, h2⟩ := ih h ho
      have : num' ≠ num := fun e => hu f hf.mem (by rw [declared_num hf, e])
      exact ⟨new, h1, by simpa [payloadsFor, this] using h2⟩
    | known _ _ num' data _ _ g old' new' hg hog hr h =>
      by_cases he : num' = num
      · subst he
        obtain rfl := declared_unique hf hg
        rw [ho] at hog
        obtain rfl := Option.some.inj hog
        have hlt : f.offset < vs.length := (List.getElem?_eq_some_iff.mp ho).1
        obtain ⟨new, h1, h2⟩ := ih h (old := new') (by simp [hlt])
        exact ⟨new, h1, by simpa [payloadsFor] using ReadAll.cons _ _ _ _ _ hr h2⟩
      · have hne : g.offset ≠ f.offset := fun e => he (by
          have := hd g hg.mem f hf.mem e
          rw [← declared_num hg, ← declared_num hf, this])
        obtain ⟨new, h1, h2⟩ := ih h (old := old) (by rw [List.getElem?_set_ne hne]; exact ho)
        exact ⟨new, h1, by simpa [payloadsFor, he] using h2⟩

theorem recs_frame {env : Env} {t : TypeId} {i : Nat} (hi : ∀ num f, Declared (env t).fields num f → f.offset ≠ i)
    {rs : List (Nat × Nat × Bytes)} : ∀ {vs vs' : List Val}, ReadingRecs env t vs rs vs' → vs'[i]? = vs[i]? := by
  induction rs with
  | nil => intro vs vs' h; cases h; rfl
  | cons r rs ih =>
    intro vs vs' h
    cases h with
    | unknown _ _ num' wt data _ _ hu h => exact ih h
    | known _ _ num' data _ _ g old' new' hg hog hr h =>
      rw [ih h, List.getElem?_set_ne (hi _ _ hg)]

theorem recs_append {env : Env} {t : TypeId} {rs rs' : List (Nat × Nat × Bytes)} : ∀ {vs vs' vs'' : List Val},
    ReadingRecs env t vs rs vs' → ReadingRecs env t vs' rs' vs'' → ReadingRecs env t vs (rs ++ rs') vs'' := by
  induction rs with
  | nil => intro vs vs' vs'' h h'; cases h; exact h'
  | cons r rs ih =>
    intro vs vs' vs'' h h'
    cases h with
    | unknown _ _ num' wt data _ _ hu h => exact .unknown _ _ _ _ _ _ _ hu (ih h h')
    | known _ _ num' data _ _ g old' new' hg hog hr h => exact .known _ _ _ _ _ _ _ _ _ hg hog hr (ih h h')

theorem recs_split {env : Env} {t : TypeId} {rs rs' : List (Nat × Nat × Bytes)} : ∀ {vs vs'' : List Val},
    ReadingRecs env t vs (rs ++ rs') vs'' → ∃ vs', ReadingRecs env t vs rs vs' ∧ ReadingRecs env t vs' rs' vs'' := by
  induction rs with
  | nil => intro vs vs'' h; exact ⟨vs, .nil _ _, h⟩
  | cons r rs ih =>
    intro vs vs'' h
    cases h with
    | unknown _ _ num' wt data _ _ hu h =>
      obtain ⟨vs', h1, h2⟩ := ih h
      exact ⟨vs', .unknown _ _ _ _ _ _ _ hu h1, h2⟩
    | known _ _ num' data _ _ g old' new' hg hog hr h =>
      obtain ⟨vs', h1, h2⟩ := ih h
      exact ⟨vs', .known _ _ _ _ _ _ _ _ _ hg hog hr h1, h2⟩

theorem reading_fits {L : Layout} {env : Env} (hwf : WFEnv L env) {c : Codec} (hc : c.WF) {d : Bytes} {u v : Val}
    (h : Reading env c u d v) (hu : Fits L c.shape u) : Fits L c.shape v := by
  have := dec_of_reading hwf h hc hu [] (.inl rfl)
  exact dec_fits hwf hc hu this

theorem reading_unique {L : Layout} {env : Env} (hwf : WFEnv L env) {c : Codec} (hc : c.WF) {d : Bytes} {u v w : Val}
    (hu : Fits L c.shape u) (h : Reading env c u d v) (h' : Reading env c u d w) : v = w := by
  have h1 := dec_of_reading hwf h hc hu [] (.inl rfl)
  rw [dec_of_reading hwf h' hc hu [] (.inl rfl)] at h1
  simpa using h1.symm

theorem readAll_fits {L : Layout} {env : Env} (hwf : WFEnv L env) {c : Codec} (hc : c.WF) {ds : List Bytes} {u v : Val}
    (h : ReadAll env c u ds v) (hu : Fits L c.shape u) : Fits L c.shape v := by
  induction h with
  | nil => exact hu
  | cons d ds u v w h1 _ ih => exact ih (reading_fits hwf hc h1 hu)

theorem recs_fits {L : Layout} {env : Env} (hwf : WFEnv L env) {t : TypeId} {rs : List (Nat × Nat × Bytes)} : ∀ {vs vs' : List Val},
    ReadingRecs env t vs rs vs' → FitsL L (L t) vs → FitsL L (L t) vs' := by
  induction rs with
  | nil => intro vs vs' h hf; cases h; exact hf
  | cons r rs ih =>
    intro vs vs' h hf
    cases h with
    | unknown _ _ num' wt data _ _ hu h => exact ih h hf
    | known _ _ num' data _ _ g old' new' hg hog hr h =>
      have hs := hwf.slot t g hg.mem
      exact ih h (fitsL_set hf hs (reading_fits hwf (hwf.codec t g hg.mem) hr (hf.2 _ _ _ hs hog)))

theorem recs_unique {L : Layout} {env : Env} (hwf : WFEnv L env) {t : TypeId} {rs : List (Nat × Nat × Bytes)} : ∀ {vs vs' vs'' : List Val},
    FitsL L (L t) vs → ReadingRecs env t vs rs vs' → ReadingRecs env t vs rs vs'' → vs' = vs'' := by
  induction rs with
  | nil => intro vs vs' vs'' _ h h'; cases h; cases h'; rfl
  | cons r rs ih =>
    intro vs vs' vs'' hf h h'
    cases h with
    | unknown _ _ num wt data _ _ hu h =>
      cases h' with
      | unknown _ _ _ _ _ _ _ _ h' => exact ih hf h h'
      | known _ _ _ _ _ _ g _ _ hg => exact absurd (declared_num hg) (hu g hg.mem)
    | known _ _ num data _ _ g old new hg hog hr h =>
      generalize hw : keyType g.tag.wiretag = wt at h'
      cases h' with
      | unknown _ _ _ _ _ _ _ hu => exact absurd (declared_num hg) (hu g hg.mem)
      | known _ _ _ _ _ _ g' old' new' hg' hog' hr' h' =>
        obtain rfl := declared_unique hg hg'
        rw [hog] at hog'
        obtain rfl := Option.some.inj hog'
        have hs := hwf.slot t g hg.mem
        have ho := hf.2 _ _ _ hs hog
        obtain rfl := reading_unique hwf (hwf.codec t g hg.mem) ho hr hr'
        exact ih (fitsL_set hf hs (reading_fits hwf (hwf.codec t g hg.mem) hr ho)) h h'

/-! ### again, by kind of field -/

theorem readAll_const {env : Env} {c : Codec} (hc : ∀ o o' d n n', Reading env c o d n → Reading env c o' d n' → n = n') {ds : List Bytes} :
    ∀ {o o' n n' : Val}, (o = o' ∨ ds ≠ []) → ReadAll env c o ds n → ReadAll env c o' ds n' → n = n' := by
  induction ds with
  | nil =>
    intro o o' n n' hd h h'
    cases h; cases h'
    rcases hd with h | h
    · exact h
    · exact absurd rfl h
  | cons d ds ih =>
    intro o o' n n' _ h h'
    cases h with
    | cons _ _ _ v _ h1 h2 => cases h' with
      | cons _ _ _ v' _ h1' h2' => exact ih (.inl (hc _ _ _ _ _ h1 h1')) h2 h2'

/-- The records of the bodies of nested messages. -/
inductive BodyCuts (isb : Nat → Prop) : List Bytes → List (Nat × Nat × Bytes) → Prop
  | nil : BodyCuts isb [] []
  | cons (d ds body rs rs') : BytesAs d body → Cuts isb body rs → BodyCuts isb ds rs' → BodyCuts isb (d :: ds) (rs ++ rs')

theorem bodyCuts_unique {isb : Nat → Prop} {ds : List Bytes} {rs rs' : List (Nat × Nat × Bytes)} (h : BodyCuts isb ds rs)
    (h' : BodyCuts isb ds rs') : rs = rs' := by
  induction h generalizing rs' with
  | nil => cases h'; rfl
  | cons d ds body rs1 rs2 hb hc _ ih =>
    cases h' with
    | cons _ _ body' rs1' rs2' hb' hc' h' =>
      obtain rfl := bytesAs_unique hb hb'
      rw [cuts_unique hc hc', ih h']

/-- Total length of the payloads. -/
def dataLen (rs : List (Nat × Nat × Bytes)) : Nat := (rs.map fun r => r.2.2.length).sum

theorem cuts_dataLen {isb : Nat → Prop} {b : Bytes} {rs : List (Nat × Nat × Bytes)} (h : Cuts isb b rs) : dataLen rs ≤ b.length := by
  induction h with
  | nil => simp [dataLen]
  | whole u b num wt data rs _ hu _ ih =>
    obtain ⟨p, _, _, rfl⟩ := hu
    simp only [dataLen, List.map_cons, List.sum_cons, List.length_append] at ih ⊢
    omega
  | bool p b num wt x q rs _ _ _ _ ih =>
    simp only [dataLen, List.map_cons, List.sum_cons, List.length_append, List.length_cons, List.length_nil] at ih ⊢
    omega

theorem bytesAs_shorter {d s : Bytes} (h : BytesAs d s) : s.length < d.length := by
  obtain ⟨p, hp, rfl⟩ := h
  have := hp.1.length_pos
  simp only [List.length_append]; omega

theorem bodyCuts_dataLen {isb : Nat → Prop} {ds : List Bytes} {rs : List (Nat × Nat × Bytes)} (h : BodyCuts isb ds rs) :
    dataLen rs + ds.length ≤ (ds.map List.length).sum := by
  induction h with
  | nil => simp [dataLen]
  | cons d ds body rs rs' hb hc _ ih =>
    have h1 := cuts_dataLen hc
    have h2 := bytesAs_shorter hb
    have h3 : dataLen (rs ++ rs') = dataLen rs + dataLen rs' := by simp [dataLen]
    simp only [List.map_cons, List.sum_cons, List.length_cons]
    omega

theorem payloadsFor_len (num : Nat) (rs : List (Nat × Nat × Bytes)) : ((payloadsFor num rs).map List.length).sum ≤ dataLen rs := by
  induction rs with
  | nil => simp [payloadsFor, dataLen]
  | cons r rs ih =>
    by_cases h : r.1 = num
    · have : payloadsFor num (r :: rs) = r.2.2 :: payloadsFor num rs := by simp [payloadsFor, h]
      rw [this]
      simp only [dataLen, List.map_cons, List.sum_cons] at ih ⊢
      omega
    · have : payloadsFor num (r :: rs) = payloadsFor num rs := by simp [payloadsFor, h]
      rw [this]
      simp only [dataLen, List.map_cons, List.sum_cons] at ih ⊢
      omega

theorem readAll_msg {env : Env} {t : TypeId} {ds : List Bytes} : ∀ {vs : List Val} {new : Val},
    ReadAll env (.msg t) (.ptr (.struct vs)) ds new →
      ∃ rs vs', new = .ptr (.struct vs') ∧ BodyCuts (BoolNumber (env t).fields) ds rs ∧ ReadingRecs env t vs rs vs' := by
  induction ds with
  | nil => intro vs new h; cases h; exact ⟨[], vs, rfl, .nil, .nil _ _⟩
  | cons d ds ih =>
    intro vs new h
    cases h with
    | cons _ _ _ v _ h1 h2 => cases h1 with
      | msgOld _ _ body rs _ vs1 hb hc hr =>
        obtain ⟨rs', vs', rfl, h3, h4⟩ := ih h2
        exact ⟨rs ++ rs', vs', rfl, .cons _ _ _ _ _ hb hc h3, recs_append hr h4⟩

/-- The entries in the payloads of a map field. -/
inductive EntryRuns (env : Env) (i : MapInfo) (kd vd : Codec) : List Bytes → List (Key × Val) → Prop
  | nil : EntryRuns env i kd vd [] []
  | cons (d ds body) (k : Key) (v kvs) : BytesAs d body →
      run (entryIdx (zerosOf env) (decM env) i kd vd) body [i.kzero, i.vzero] = .ok ([k.toVal, v], none) →
      EntryRuns env i kd vd ds kvs → EntryRuns env i kd vd (d :: ds) ((k, v) :: kvs)

theorem key_toVal_inj {k k' : Key} (h : k.toVal = k'.toVal) : k = k' := by
  cases k <;> cases k' <;> simp_all [Key.toVal]

theorem entryRuns_unique {env : Env} {i : MapInfo} {kd vd : Codec} {ds : List Bytes} {l l' : List (Key × Val)}
    (h : EntryRuns env i kd vd ds l) (h' : EntryRuns env i kd vd ds l') : l = l' := by
  induction h generalizing l' with
  | nil => cases h'; rfl
  | cons d ds body k v kvs hb hr _ ih =>
    cases h' with
    | cons _ _ body' k' v' kvs' hb' hr' h' =>
      obtain rfl := bytesAs_unique hb hb'
      rw [hr] at hr'
      simp only [Except.ok.injEq, Prod.mk.injEq, List.cons.injEq, and_true] at hr'
      obtain ⟨h1, rfl⟩ := hr'
      rw [key_toVal_inj h1, ih h']

theorem readAll_map {L : Layout} {env : Env} (hwf : WFEnv L env) {i : MapInfo} {kc vc kd vd : Codec} (hc : (Codec.map i kc vc kd vd).WF)
    {ds : List Bytes} : ∀ {n : Bool} {m : List (Key × Val)} {new : Val}, ReadAll env (.map i kc vc kd vd) (.map n m) ds new →
      ∃ l, EntryRuns env i kd vd ds l ∧ new = .map (if ds = [] then n else false) (assignAll m l) := by
  induction ds with
  | nil => intro n m new h; cases h; exact ⟨[], .nil, rfl⟩
  | cons d ds ih =>
    intro n m new h
    cases h with
    | cons _ _ _ v _ h1 h2 => cases h1 with
      | map _ _ _ _ _ _ _ _ body rs k v m' hb hcut he ha =>
        obtain ⟨l, h3, rfl⟩ := ih h2
        obtain ⟨hk, hkd, hvd, hkz, hvz, _, _, hkdw, hvdw⟩ := hc
        have hrun := run_of_readingEntry hwf he hkdw hvdw (by rw [hkz, hkd]; exact fits_zero L _)
          (by rw [hvz, hvd]; exact fits_zero L _) body hcut
        refine ⟨(k, v) :: l, .cons _ _ _ _ _ _ hb hrun h3, ?_⟩
        rw [← assign_mapAssign ha]
        simp [assignAll]

theorem readAll_ptr {env : Env} {z : Val} {c : Codec} {ds : List Bytes} : ∀ {o new : Val},
    ReadAll env (.ptr z c) (.ptr o) ds new → ∃ x, new = .ptr x ∧ ReadAll env c o ds x := by
  induction ds with
  | nil => intro o new h; cases h; exact ⟨o, rfl, .nil _⟩
  | cons d ds ih =>
    intro o new h
    cases h with
    | cons _ _ _ v _ h1 h2 => cases h1 with
      | ptrOld _ _ _ _ new h1 =>
        obtain ⟨x, rfl, h3⟩ := ih h2
        exact ⟨x, rfl, .cons _ _ _ _ _ h1 h3⟩

/-- Reading the payloads of a field again, given that reading shorter lists of records again changes nothing. -/
theorem readAll_again {L : Layout} {env : Env} (hwf : WFEnv L env) (N : Nat)
    (IH : ∀ t rs vs vs' vs'', dataLen rs < N → NoRepeated env t → FitsL L (L t) vs → ReadingRecs env t vs rs vs' →
      ReadingRecs env t vs' rs vs'' → vs'' = vs') :
    ∀ (c : Codec), c.WF → c.notRepeated → (∀ t, c.holdsMsg t → NoRepeated env t) → ∀ (ds : List Bytes) (old new new' : Val),
      (ds.map List.length).sum ≤ N → Fits L c.shape old → ReadAll env c old ds new → ReadAll env c new ds new' → new' = new := by
  intro c
  induction c with
  | normal s =>
    intro _ _ _ ds old new new' _ _ h h'
    by_cases hd : ds = []
    · subst hd; cases h'; rfl
    refine (readAll_const (fun o o' d n n' h h' => ?_) (.inr hd) h h').symm
    cases h with
    | normal _ _ _ _ hs h => cases h' with
      | normal _ _ _ _ _ h' => exact readsAs_unique h h'
      | normalBool => exact absurd rfl hs
    | normalBool => cases h' with
      | normal _ _ _ _ hs _ => exact absurd rfl hs
      | normalBool => rfl
  | required s =>
    intro _ _ _ ds old new new' _ _ h h'
    by_cases hd : ds = []
    · subst hd; cases h'; rfl
    refine (readAll_const (fun o o' d n n' h h' => ?_) (.inr hd) h h').symm
    cases h with
    | required _ _ _ _ hs h => cases h' with
      | required _ _ _ _ _ h' => exact readsAs_unique h h'
      | requiredBool => exact absurd rfl hs
    | requiredBool => cases h' with
      | required _ _ _ _ hs _ => exact absurd rfl hs
      | requiredBool => rfl
  | option s =>
    intro _ _ _ ds old new new' _ _ h h'
    by_cases hd : ds = []
    · subst hd; cases h'; rfl
    refine (readAll_const (fun o o' d n n' h h' => ?_) (.inr hd) h h').symm
    cases h with
    | option _ _ _ _ _ hs h => cases h' with
      | option _ _ _ _ _ _ h' => rw [readsAs_unique h h']
      | optionBool => exact absurd rfl hs
    | optionBool => cases h' with
      | option _ _ _ _ _ hs _ => exact absurd rfl hs
      | optionBool => rfl
  | bytes =>
    intro _ _ _ ds old new new' _ _ h h'
    by_cases hd : ds = []
    · subst hd; cases h'; rfl
    refine (readAll_const (fun o o' d n n' h h' => ?_) (.inr hd) h h').symm
    cases h with
    | bytes _ _ _ h => cases h' with
      | bytes _ _ _ h' => rw [bytesAs_unique h h']
  | ptr z c ih =>
    intro hw hn hm ds old new new' hl hf h h'
    have main : ∀ o x, Fits L c.shape o → ReadAll env c o ds x → ReadAll env (.ptr z c) (.ptr x) ds new' → new' = .ptr x := by
      intro o x ho h1 h2
      obtain ⟨x', rfl, h3⟩ := readAll_ptr h2
      rw [ih hw.2 hn hm ds o x x' hl ho h1 h3]
    cases h with
    | nil => cases h'; rfl
    | cons d ds _ v _ h1 h2 => cases h1 with
      | ptrNew _ _ _ n h1 =>
        obtain ⟨x, rfl, h3⟩ := readAll_ptr h2
        exact main z x (by rw [hw.1]; exact fits_zero L _) (.cons _ _ _ _ _ h1 h3) h'
      | ptrOld _ _ o _ n h1 =>
        obtain ⟨x, rfl, h3⟩ := readAll_ptr h2
        refine main o x ?_ (.cons _ _ _ _ _ h1 h3) h'
        simp only [Codec.shape] at hf
        cases hf with | ptr _ _ h => exact h
  | slice z c ih => intro _ hn; exact hn.elim
  | msg t =>
    intro _ _ hm ds old new new' hl hf h h'
    cases h with
    | nil => cases h'; rfl
    | cons d ds _ v _ h1 h2 =>
      have main : ∀ vs body rs vs1, FitsL L (L t) vs → BytesAs d body → Cuts (BoolNumber (env t).fields) body rs →
          ReadingRecs env t vs rs vs1 → v = .ptr (.struct vs1) → new' = new := by
        intro vs body rs vs1 hfv hb hc hr hv
        subst hv
        obtain ⟨rs', vs', rfl, h3, h4⟩ := readAll_msg h2
        obtain ⟨rs'', vs'', rfl, h5, h6⟩ := readAll_msg h'
        have hcut := BodyCuts.cons _ _ _ _ _ hb hc h3
        have := bodyCuts_unique hcut h5
        subst this
        have hlen := bodyCuts_dataLen hcut
        simp only [List.length_cons] at hlen
        rw [IH t _ vs vs' vs'' (by omega) (hm t rfl) hfv (recs_append hr h4) h6]
      cases h1 with
      | msgNew _ _ body rs vs vs1 hz hb hc hr =>
        refine main vs body rs vs1 ?_ hb hc hr rfl
        rw [hwf.zero t] at hz
        cases hz
        exact fitsL_zero L _
      | msgOld _ _ body rs vs vs1 hb hc hr =>
        refine main vs body rs vs1 ?_ hb hc hr rfl
        simp only [Codec.shape] at hf
        cases hf with
        | msg _ _ h1 h2 => exact ⟨h1, h2⟩
  | map i kc vc kd vd _ _ _ _ =>
    intro hw _ _ ds old new new' _ hf h h'
    by_cases hd : ds = []
    · subst hd; cases h'; rfl
    simp only [Codec.shape] at hf
    have : ∃ n m, old = .map n m := by cases hf; exact ⟨_, _, rfl⟩
    obtain ⟨n, m, rfl⟩ := this
    obtain ⟨l, h1, rfl⟩ := readAll_map hwf hw h
    obtain ⟨l', h2, rfl⟩ := readAll_map hwf hw h'
    obtain rfl := entryRuns_unique h1 h2
    simp [hd, assignAll_again]

/-- Reading the same records again changes nothing. -/
theorem recs_again {L : Layout} {env : Env} (hwf : WFEnv L env) (hd : ∀ t, DistinctSlots (env t).fields) :
    ∀ (N : Nat) t rs vs vs' vs'', dataLen rs < N → NoRepeated env t → FitsL L (L t) vs → ReadingRecs env t vs rs vs' →
      ReadingRecs env t vs' rs vs'' → vs'' = vs' := by
  intro N
  induction N with
  | zero => intro t rs vs vs' vs'' h; omega
  | succ N IH =>
    intro t rs vs vs' vs'' hN hn hf h h'
    refine List.ext_getElem? fun i => ?_
    by_cases hi : ∃ num f, Declared (env t).fields num f ∧ f.offset = i
    · obtain ⟨num, f, hdf, rfl⟩ := hi
      obtain ⟨old, _, ho, hfo⟩ := slotOf_fits hf (hwf.slot t f hdf.mem)
      obtain ⟨new, h1, h2⟩ := recs_slot (hd t) hdf h ho
      obtain ⟨new', h3, h4⟩ := recs_slot (hd t) hdf h' h1
      rw [h1, h3]
      have hlen := payloadsFor_len num rs
      rw [readAll_again hwf N IH f.codec (hwf.codec t f hdf.mem) (hn t (.self t) f hdf.mem)
        (fun t' ht t'' hw => hn t'' (.field t f t' t'' hdf.mem ht hw)) _ old new new' (by omega) hfo h2 h4]
    · exact recs_frame (fun num f h1 h2 => hi ⟨num, f, h1, h2⟩) h'

/-! ### the front part of an input -/

/-- The decode loop on the front part of an accepted input stops after some of its records. -/
theorem run_front {L : Layout} {env : Env} (hwf : WFEnv L env) {t : TypeId} {rs : List (Nat × Nat × Bytes)} :
    ∀ {vs vs' : List Val} {p q : Bytes}, FitsL L (L t) vs → Cuts (BoolNumber (env t).fields) (p ++ q) rs → ReadingRecs env t vs rs vs' →
      ∃ rs1 rs2 vs1 o, rs = rs1 ++ rs2 ∧ ReadingRecs env t vs rs1 vs1 ∧ run (idxM env t) p vs = .ok (vs1, o) := by
  induction rs with
  | nil =>
    intro vs vs' p q hf hc h
    have := cuts_nil_inv hc
    simp at this
    obtain ⟨rfl, rfl⟩ := this
    exact ⟨[], [], vs, none, rfl, .nil _ _, run_nil _ _⟩
  | cons r rs ih =>
    intro vs vs' p q hf hc h
    by_cases hp0 : p = []
    · subst hp0; exact ⟨[], r :: rs, vs, none, rfl, .nil _ _, run_nil _ _⟩
    obtain ⟨num, wt, d⟩ := r
    -- the first record, with its whole payload
    have front : ∃ tg data rest, p ++ q = tg ++ (data ++ rest) ∧ TagBytes tg num wt ∧ Payload wt data ∧
        ∃ z, data = d ++ z ∧ (z = [] ∨ BoolNumber (env t).fields num) ∧ Cuts (BoolNumber (env t).fields) (z ++ rest) rs := by
      rcases cuts_whole_inv hc with ⟨_, u, r, e, ⟨tg, ht, hp, rfl⟩, hr⟩ | ⟨hb, tg, x, z, r, rfl, e, ht, hp, hr⟩
      · exact ⟨tg, d, r, by rw [e, List.append_assoc], ht, hp, [], by simp, .inl rfl, hr⟩
      · exact ⟨tg, x :: z, r, e, ht, hp, z, rfl, .inr hb, hr⟩
    obtain ⟨tg, data, rest, e, ht, hpl, z, hz, hzb, hr⟩ := front
    have cut : (∃ q1, q1 ≠ [] ∧ tg = p ++ q1) ∨ (∃ d1 d2, d2 ≠ [] ∧ data = d1 ++ d2 ∧ p = tg ++ d1) ∨
        (∃ r1, p = tg ++ (data ++ r1) ∧ rest = r1 ++ q) := by
      rcases List.append_eq_append_iff.mp e with ⟨a, rfl, e2⟩ | ⟨a, rfl, e2⟩
      · by_cases ha : a = []
        · subst ha
          by_cases hd : data = []
          · subst hd; simp at e2; exact .inr (.inr ⟨[], by simp, by simpa using e2.symm⟩)
          · exact .inr (.inl ⟨[], data, hd, rfl, by simp⟩)
        · exact .inl ⟨a, ha, rfl⟩
      · rcases List.append_eq_append_iff.mp e2 with ⟨c, rfl, e3⟩ | ⟨c, rfl, e3⟩
        · exact .inr (.inr ⟨c, by simp, e3⟩)
        · by_cases hc : c = []
          · subst hc; exact .inr (.inr ⟨[], by simp, by simpa using e3.symm⟩)
          · exact .inr (.inl ⟨a, c, hc, rfl, rfl⟩)
    have stop : (∃ e, stepS (idxM env t) p vs = .ok (.fail vs e)) → ∃ rs1 rs2 vs1 o, (num, wt, d) :: rs = rs1 ++ rs2 ∧
        ReadingRecs env t vs rs1 vs1 ∧ run (idxM env t) p vs = .ok (vs1, o) := by
      rintro ⟨e, he⟩
      exact ⟨[], _, vs, some e, rfl, .nil _ _, by rw [run_cons _ _ _ hp0, he]⟩
    rcases cut with ⟨q1, hq, rfl⟩ | ⟨d1, d2, hd2, rfl, rfl⟩ | ⟨r1, rfl, rfl⟩
    · refine stop ⟨.unexpectedEOF, ?_⟩
      have := decodeTag_prefix ht hq
      unfold stepS
      rcases hdt : decodeTag p with ⟨a1, a2, a3, a4⟩
      rw [hdt] at this; cases this; rfl
    · refine stop ?_
      cases h with
      | unknown _ _ _ _ _ _ _ hu _ =>
        refine ⟨.field num wt .unexpectedEOF, ?_⟩
        simp only [stepS, decodeTag_of ht, idxM_undeclared hu, List.drop_left, takePayload_prefix hpl hd2]
      | known _ _ _ _ _ _ f _ _ hdf _ _ _ =>
        refine ⟨.field num (keyType f.tag.wiretag) .unexpectedEOF, ?_⟩
        simp only [stepS, decodeTag_of ht, idxM_declared hdf, List.drop_left, takePayload_prefix hpl hd2]
        rw [if_neg]
        · exact fun h => h rfl
    · have hcc : Cuts (BoolNumber (env t).fields) ((z ++ r1) ++ q) rs := by rwa [List.append_assoc]
      cases h with
      | unknown _ _ _ _ _ _ _ hu h =>
        have hz0 : z = [] := by
          rcases hzb with h | ⟨f, hdf, _⟩
          · exact h
          · exact absurd (declared_num hdf) (hu f hdf.mem)
        subst hz0
        obtain ⟨rs1, rs2, vs1, o, rfl, h1, h2⟩ := ih hf hcc h
        refine ⟨(num, wt, d) :: rs1, rs2, vs1, o, rfl, .unknown _ _ _ _ _ _ _ hu h1, ?_⟩
        rw [← List.append_assoc, run_unknown ⟨tg, ht, hpl, rfl⟩ (idxM_undeclared hu)]
        exact h2
      | known _ _ _ _ _ _ f old new hdf ho hrd h =>
        have hs := hwf.slot t f hdf.mem
        have hfo := hf.2 _ _ _ hs ho
        have hdec := dec_of_reading hwf hrd (hwf.codec t f hdf.mem) hfo z (hzb.imp id (idx_bool hdf).mp)
        obtain ⟨rs1, rs2, vs1, o, rfl, h1, h2⟩ := ih (fitsL_set hf hs (reading_fits hwf (hwf.codec t f hdf.mem) hrd hfo)) hcc h
        refine ⟨(num, _, d) :: rs1, rs2, vs1, o, rfl, .known _ _ _ _ _ _ _ _ _ hdf ho hrd h1, ?_⟩
        subst hz
        rw [run_known_part (f := toD (zerosOf env) (decM env) f) ht hpl (idxM_declared hdf) ho hdec]
        exact h2

end Pb
