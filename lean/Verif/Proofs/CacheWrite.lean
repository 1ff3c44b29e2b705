import Verif.Spec.CacheWrite
import Verif.Proofs.CacheUse
/-
Each object of type analysis is filled in by the goroutine that allocated it, and once.
-/
namespace Pb.Cache

/-- What a goroutine has allocated and not filled in yet. -/
abbrev Own := List Nat × List Nat

/-- The goroutine may do this. -/
def Op.may : Op → Own → Prop
  | .setCodec n _, w => n ∈ w.1
  | .setInfo i _, w => i ∈ w.2
  | _, _ => True

/-- What it has then. -/
def Op.own : (o : Op) → o.Resp → Own → Own
  | .newCodec, (n : Nat), w => (n :: w.1, w.2)
  | .newInfo _, (i : Nat), w => (w.1, i :: w.2)
  | .setCodec n _, _, w => (w.1.erase n, w.2)
  | .setInfo i _, _, w => (w.1, w.2.erase i)
  | _, _, w => w

/-- The program fills in nothing but what is its own; `Q` holds at the end. -/
def Keep {α : Type} (Q : α → Own → Prop) : Prog α → Own → Prop
  | .ret a, w => Q a w
  | .panic, _ => True
  | .stuck, _ => True
  | .op o k, w => o.may w ∧ ∀ r, Keep Q (k r) (o.own r w)

theorem keep_bind {α β : Type} {Q : β → Own → Prop} {f : α → Prog β} :
    ∀ {p : Prog α} {w : Own}, Keep (fun a => Keep Q (f a)) p w → Keep Q (p.bind f) w
  | .ret _, _, h => h
  | .panic, _, _ => trivial
  | .stuck, _, _ => trivial
  | .op _ _, _, h => ⟨h.1, fun r => keep_bind (h.2 r)⟩

theorem keep_imp {α : Type} {Q Q' : α → Own → Prop} (hQ : ∀ a w, Q a w → Q' a w) : ∀ {p : Prog α} {w : Own}, Keep Q p w → Keep Q' p w
  | .ret _, _, h => hQ _ _ h
  | .panic, _, _ => trivial
  | .stuck, _, _ => trivial
  | .op _ _, _, h => ⟨h.1, fun r => keep_imp hQ (h.2 r)⟩

/-- The program fills in all it allocates, and nothing else. -/
def Tidy {α : Type} (p : Prog α) : Prop := ∀ w, Keep (fun _ w' => w' = w) p w

theorem tidy_bind {α β : Type} {p : Prog α} {f : α → Prog β} (hp : Tidy p) (hf : ∀ a, Tidy (f a)) : Tidy (p >>= f) := by
  intro w
  refine keep_bind (keep_imp ?_ (hp w))
  rintro a w' rfl
  exact hf a w'

theorem tidy_pure {α : Type} (a : α) : Tidy (pure a : Prog α) := fun _ => rfl

theorem tidy_panic {α : Type} : Tidy (.panic : Prog α) := fun _ => trivial

theorem tidy_read {o : Op} (h1 : ∀ w, o.may w) (h2 : ∀ r w, o.own r w = w) : Tidy (perform o) := fun w => ⟨h1 w, fun r => h2 r w⟩

/-- A codec is allocated, something is done, and it is filled in. -/
theorem tidy_codec {α β : Type} {p : Nat → Prog α} {b : Nat → α → CBody} {f : Nat → α → Prog β} (hp : ∀ n, Tidy (p n)) (hf : ∀ n a, Tidy (f n a)) :
    Tidy (perform .newCodec >>= fun n : Nat => p n >>= fun a => perform (.setCodec n (b n a)) >>= fun _ => f n a) := by
  intro w
  refine ⟨trivial, fun (n : Nat) => ?_⟩
  refine keep_bind (p := p n) (keep_imp ?_ (hp n (n :: w.1, w.2)))
  rintro a w' rfl
  refine ⟨List.mem_cons_self, fun _ => ?_⟩
  simp only [Op.own, List.erase_cons_head]
  exact hf n a w

theorem tidy_codec' {β : Type} {b : Nat → CBody} {f : Nat → Prog β} (hf : ∀ n, Tidy (f n)) :
    Tidy (perform .newCodec >>= fun n : Nat => perform (.setCodec n (b n)) >>= fun _ => f n) := by
  intro w
  refine ⟨trivial, fun (n : Nat) => ⟨List.mem_cons_self, fun _ => ?_⟩⟩
  simp only [Op.own, List.erase_cons_head]
  exact hf n w

theorem tidy_info {α β : Type} {k : InfoKey} {p : Nat → Prog α} {b : Nat → α → List FieldH} {f : Nat → α → Prog β} (hp : ∀ n, Tidy (p n))
    (hf : ∀ n a, Tidy (f n a)) :
    Tidy (perform (.newInfo k) >>= fun n : Nat => p n >>= fun a => perform (.setInfo n (b n a)) >>= fun _ => f n a) := by
  intro w
  refine ⟨trivial, fun (n : Nat) => ?_⟩
  refine keep_bind (p := p n) (keep_imp ?_ (hp n (w.1, n :: w.2)))
  rintro a w' rfl
  refine ⟨List.mem_cons_self, fun _ => ?_⟩
  simp only [Op.own, List.erase_cons_head]
  exact hf n a w

variable {rec : InfoKey → WProg Nat}

theorem tidy_structCodec (hr : ∀ k w, Tidy (rec k w)) (t : TypeId) (w : Walk) : Tidy (structCodecP rec t w) := by
  unfold structCodecP
  refine tidy_bind (tidy_read (fun _ => trivial) fun _ _ => rfl) fun a => ?_
  split
  · exact tidy_pure _
  · split
    · exact tidy_pure _
    · refine tidy_codec (p := fun n => rec (.named t) (w.setCodec (.ptr (.named t)) (.heap n))) (b := fun _ a => .msg t a.1)
        (f := fun n a => perform (.codecLoadOrStore t (.heap n)) >>= fun c => pure (c, a.2)) (fun n => hr _ _) fun n a => ?_
      exact tidy_bind (tidy_read (fun _ => trivial) fun _ _ => rfl) fun c => tidy_pure _

theorem tidy_wCodec (hr : ∀ k w, Tidy (rec k w)) (conf : Conf) : ∀ (T : GoType) (w : Walk), Tidy (wCodecP rec conf T w) := by
  intro T
  induction T with
  | ptr t ih =>
    intro w
    unfold wCodecP
    split
    · exact tidy_pure _
    · split
      · exact tidy_structCodec hr _ _
      · exact tidy_codec (p := fun n => wCodecP rec conf t (w.setCodec (.ptr t) (.heap n))) (b := fun _ a => .ptr (zeroOf t) a.1)
          (f := fun n a => pure (CPtr.heap n, a.2)) (fun n => ih _) fun n a => tidy_pure _
  | slice t ih =>
    intro w
    unfold wCodecP
    split
    · exact tidy_pure _
    · split
      · exact tidy_pure _
      · exact tidy_panic
  | _ =>
    intro w
    unfold wCodecP
    split
    · exact tidy_pure _
    · split
      · exact tidy_pure _
      · exact tidy_panic

theorem tidy_sliceCodec (t : GoType) (z : Val) (c : CPtr) (w : Walk) : Tidy (sliceCodecP t z c w) := by
  unfold sliceCodecP
  refine tidy_bind (tidy_read (fun _ => trivial) fun _ _ => rfl) fun a => ?_
  split
  · exact tidy_pure _
  · split
    · exact tidy_pure _
    · refine tidy_codec' (b := fun _ => .slice z c)
        (f := fun n => perform (.sliceLoadOrStore c (.heap n)) >>= fun a => pure (a, w.setCodec t (.heap n))) fun n => ?_
      exact tidy_bind (tidy_read (fun _ => trivial) fun _ _ => rfl) fun c => tidy_pure _

theorem tidy_tyCodec (hr : ∀ k w, Tidy (rec k w)) (t : StructTag) (kt vt : Text) (T : GoType) (w : Walk) : Tidy (tyCodecP rec t kt vt T w) := by
  cases T with
  | map k v =>
    unfold tyCodecP
    refine tidy_bind (tidy_wCodec hr _ _ _) fun a => tidy_bind (tidy_wCodec hr _ _ _) fun b => ?_
    obtain ⟨b, w⟩ := b
    exact tidy_codec (p := fun n => rec _ (w.setCodec (.map k v) (.heap n))) (b := fun _ c => .map _ a.1 b c.1)
      (f := fun n c => pure (CPtr.heap n, c.2)) (fun n => hr _ _) fun n c => tidy_pure _
  | _ =>
    unfold tyCodecP
    dsimp only
    repeat' first
      | exact tidy_pure _
      | exact tidy_panic
      | exact tidy_wCodec hr _ _ _
      | exact tidy_bind (tidy_wCodec hr _ _ _) fun a => tidy_sliceCodec _ _ _ _
      | split

theorem tidy_fieldCodec (hr : ∀ k w, Tidy (rec k w)) (t : StructTag) (kt vt : Text) (T : FieldType) (w : Walk) :
    Tidy (fieldCodecP rec t kt vt T w) := by
  cases T with
  | opt b =>
    unfold fieldCodecP
    dsimp only
    repeat' first
      | exact tidy_pure _
      | exact tidy_panic
      | split
  | ty T => exact tidy_tyCodec hr _ _ _ _ _

theorem tidy_walkFields (hr : ∀ k w, Tidy (rec k w)) : ∀ (fs : List FieldDecl) (i : Nat) (w : Walk), Tidy (walkFieldsP rec i fs w)
  | [], _, _ => tidy_pure _
  | f :: fs, i, w => by
    unfold walkFieldsP
    split
    · split
      · exact tidy_walkFields hr fs _ _
      · split
        · exact tidy_panic
        · exact tidy_bind (tidy_fieldCodec hr _ _ _ _ _) fun a => tidy_bind (tidy_walkFields hr fs _ _) fun b => tidy_pure _
    · exact tidy_walkFields hr fs _ _

theorem tidy_structInfo (D : Decls) : ∀ (d : Nat) (k : InfoKey) (w : Walk), Tidy (structInfoP D d k w)
  | 0, _, _ => fun _ => trivial
  | d + 1, k, w => by
    unfold structInfoP
    refine tidy_bind (tidy_read (fun _ => trivial) fun _ _ => rfl) fun a => ?_
    split
    · exact tidy_pure _
    · split
      · exact tidy_pure _
      · refine tidy_info (p := fun i => walkFieldsP (structInfoP D d) 0 (k.decl D) { w with infos := upd w.infos k (some i) })
          (b := fun _ a => a.1) (f := fun i a => perform (.infoStore k i) >>= fun _ => pure (i, a.2)) (fun i => ?_) fun i a => ?_
        · exact tidy_walkFields (tidy_structInfo D d) _ _ _
        · exact tidy_bind (tidy_read (fun _ => trivial) fun _ _ => rfl) fun c => tidy_pure _

theorem tidy_cached (D : Decls) (d : Nat) (t : TypeId) : Tidy (cachedStructInfoOf D d t) := by
  unfold cachedStructInfoOf
  refine tidy_bind (tidy_read (fun _ => trivial) fun _ _ => rfl) fun a => ?_
  split
  · exact tidy_pure _
  · exact tidy_bind (tidy_structInfo D d _ _) fun b => tidy_read (fun _ => trivial) fun _ _ => rfl

/-! ### The process -/

/-- Each goroutine has its own objects, which are not filled in. -/
structure Owned (s : State) (own : Nat → Own) : Prop where
  openC : ∀ n, ∀ c ∈ (own n).1, s.openC c
  openI : ∀ n, ∀ i ∈ (own n).2, s.openI i
  nodupC : ∀ n, (own n).1.Nodup
  nodupI : ∀ n, (own n).2.Nodup
  apartC : ∀ n m, n ≠ m → ∀ c ∈ (own n).1, c ∉ (own m).1
  apartI : ∀ n m, n ≠ m → ∀ i ∈ (own n).2, i ∉ (own m).2

/-- What has been filled in stays as it is. -/
structure Fixed (s s' : State) : Prop where
  codec : ∀ (n : Nat) b, s.codecs[n]? = some (some b) → s'.codecs[n]? = some (some b)
  info : ∀ (i : Nat) k fs, s.infos[i]? = some ⟨k, some fs⟩ → s'.infos[i]? = some ⟨k, some fs⟩
  key : ∀ (i : Nat) o, s.infos[i]? = some o → ∃ o', s'.infos[i]? = some o' ∧ o'.key = o.key
  codecCache : ∀ t p, s.codecCache t = some p → s'.codecCache t = some p
  sliceMap : ∀ c p, s.sliceMap c = some p → s'.sliceMap c = some p

theorem Fixed.refl (s : State) : Fixed s s :=
  ⟨fun _ _ h => h, fun _ _ _ h => h, fun _ o h => ⟨o, h, rfl⟩, fun _ _ h => h, fun _ _ h => h⟩

theorem Fixed.trans {s s' s'' : State} (h : Fixed s s') (h' : Fixed s' s'') : Fixed s s'' where
  codec n b hb := h'.codec n b (h.codec n b hb)
  info i k fs hb := h'.info i k fs (h.info i k fs hb)
  key i o ho := by
    obtain ⟨o', h1, h2⟩ := h.key i o ho
    obtain ⟨o'', h3, h4⟩ := h'.key i o' h1
    exact ⟨o'', h3, h4.trans h2⟩
  codecCache t p hp := h'.codecCache t p (h.codecCache t p hp)
  sliceMap c p hp := h'.sliceMap c p (h.sliceMap c p hp)

/-- The goroutine `n` now has `w`. -/
def setOwn (own : Nat → Own) (n : Nat) (w : Own) : Nat → Own := fun m => if m = n then w else own m

theorem setOwn_same (own : Nat → Own) (n : Nat) : setOwn own n (own n) = own := by
  funext m
  unfold setOwn
  split
  · next h => rw [h]
  · rfl

theorem Owned.heap {s s' : State} {own : Nat → Own} (h : Owned s own) (hc : s'.codecs = s.codecs) (hi : s'.infos = s.infos) : Owned s' own where
  openC n c hn := by have := h.openC n c hn; unfold State.openC at *; rw [hc]; exact this
  openI n c hn := by have := h.openI n c hn; unfold State.openI at *; rw [hi]; exact this
  nodupC := h.nodupC
  nodupI := h.nodupI
  apartC := h.apartC
  apartI := h.apartI

theorem owned_newCodec {s : State} {own : Nat → Own} (h : Owned s own) (n : Nat) :
    Owned { s with codecs := s.codecs ++ [none] } (setOwn own n (s.codecs.length :: (own n).1, (own n).2)) where
  openC m c hm := by
    have old : s.openC c → State.openC { s with codecs := s.codecs ++ [none] } c := fun ho =>
      by
        unfold State.openC at *
        rw [List.getElem?_append_left (List.getElem?_eq_some_iff.mp ho).1]; exact ho
    unfold setOwn at hm
    split at hm
    · rcases List.mem_cons.mp hm with rfl | hm
      · unfold State.openC
        simp
      · exact old (h.openC n c hm)
    · exact old (h.openC m c hm)
  openI m i hm := by
    unfold setOwn at hm
    split at hm
    · exact h.openI n i hm
    · exact h.openI m i hm
  nodupC m := by
    unfold setOwn
    split
    · refine List.nodup_cons.mpr ⟨fun hx => ?_, h.nodupC n⟩
      have := h.openC n _ hx
      unfold State.openC at this
      simp at this
    · exact h.nodupC m
  nodupI m := by
    unfold setOwn
    split
    · exact h.nodupI n
    · exact h.nodupI m
  apartC m l hml c hc hc' := by
    have new : ∀ k, s.codecs.length ∉ (own k).1 := fun k hx => by
      have := h.openC k _ hx
      unfold State.openC at this
      simp at this
    unfold setOwn at hc hc'
    split at hc <;> split at hc'
    · omega
    · rcases List.mem_cons.mp hc with rfl | hc
      · exact new l hc'
      · exact h.apartC n l (by omega) c hc hc'
    · rcases List.mem_cons.mp hc' with rfl | hc'
      · exact new m hc
      · exact h.apartC m n (by omega) c hc hc'
    · exact h.apartC m l hml c hc hc'
  apartI m l hml c hc hc' := by
    unfold setOwn at hc hc'
    split at hc <;> split at hc'
    · omega
    · exact h.apartI n l (by omega) c hc hc'
    · exact h.apartI m n (by omega) c hc hc'
    · exact h.apartI m l hml c hc hc'

theorem owned_newInfo {s : State} {own : Nat → Own} (h : Owned s own) (n : Nat) (k : InfoKey) :
    Owned { s with infos := s.infos ++ [⟨k, none⟩] } (setOwn own n ((own n).1, s.infos.length :: (own n).2)) where
  openI m c hm := by
    have old : s.openI c → State.openI { s with infos := s.infos ++ [⟨k, none⟩] } c := fun ⟨k', ho⟩ =>
      ⟨k', by
        simp only
        rw [List.getElem?_append_left (List.getElem?_eq_some_iff.mp ho).1]; exact ho⟩
    unfold setOwn at hm
    split at hm
    · rcases List.mem_cons.mp hm with rfl | hm
      · exact ⟨k, by simp⟩
      · exact old (h.openI n c hm)
    · exact old (h.openI m c hm)
  openC m i hm := by
    unfold setOwn at hm
    split at hm
    · exact h.openC n i hm
    · exact h.openC m i hm
  nodupI m := by
    unfold setOwn
    split
    · refine List.nodup_cons.mpr ⟨fun hx => ?_, h.nodupI n⟩
      obtain ⟨k', this⟩ := h.openI n _ hx
      simp at this
    · exact h.nodupI m
  nodupC m := by
    unfold setOwn
    split
    · exact h.nodupC n
    · exact h.nodupC m
  apartI m l hml c hc hc' := by
    have new : ∀ k, s.infos.length ∉ (own k).2 := fun k hx => by
      obtain ⟨k', this⟩ := h.openI k _ hx
      simp at this
    unfold setOwn at hc hc'
    split at hc <;> split at hc'
    · omega
    · rcases List.mem_cons.mp hc with rfl | hc
      · exact new l hc'
      · exact h.apartI n l (by omega) c hc hc'
    · rcases List.mem_cons.mp hc' with rfl | hc'
      · exact new m hc
      · exact h.apartI m n (by omega) c hc hc'
    · exact h.apartI m l hml c hc hc'
  apartC m l hml c hc hc' := by
    unfold setOwn at hc hc'
    split at hc <;> split at hc'
    · omega
    · exact h.apartC n l (by omega) c hc hc'
    · exact h.apartC m n (by omega) c hc hc'
    · exact h.apartC m l hml c hc hc'

theorem mem_erase_nodup {l : List Nat} (h : l.Nodup) {a c : Nat} (hc : c ∈ l.erase a) : c ≠ a ∧ c ∈ l :=
  (List.Nodup.mem_erase_iff h).mp hc

theorem owned_setCodec {s : State} {own : Nat → Own} (h : Owned s own) {n a : Nat} (ha : a ∈ (own n).1) (b : CBody) :
    Owned { s with codecs := s.codecs.set a (some b) } (setOwn own n ((own n).1.erase a, (own n).2)) where
  openC m c hm := by
    have old : c ≠ a → s.openC c → State.openC { s with codecs := s.codecs.set a (some b) } c := fun hca ho => by
      unfold State.openC at *
      simp only
      rw [List.getElem?_set_ne (Ne.symm hca)]; exact ho
    unfold setOwn at hm
    split at hm
    · obtain ⟨h1, h2⟩ := mem_erase_nodup (h.nodupC n) hm
      exact old h1 (h.openC n c h2)
    · next hmn =>
      refine old ?_ (h.openC m c hm)
      rintro rfl
      exact h.apartC m n hmn c hm ha
  openI m i hm := by
    unfold setOwn at hm
    split at hm
    · exact h.openI n i hm
    · exact h.openI m i hm
  nodupC m := by
    unfold setOwn
    split
    · exact (h.nodupC n).erase a
    · exact h.nodupC m
  nodupI m := by
    unfold setOwn
    split
    · exact h.nodupI n
    · exact h.nodupI m
  apartC m l hml c hc hc' := by
    unfold setOwn at hc hc'
    split at hc <;> split at hc'
    · omega
    · exact h.apartC n l (by omega) c (mem_erase_nodup (h.nodupC n) hc).2 hc'
    · exact h.apartC m n (by omega) c hc (mem_erase_nodup (h.nodupC n) hc').2
    · exact h.apartC m l hml c hc hc'
  apartI m l hml c hc hc' := by
    unfold setOwn at hc hc'
    split at hc <;> split at hc'
    · omega
    · exact h.apartI n l (by omega) c hc hc'
    · exact h.apartI m n (by omega) c hc hc'
    · exact h.apartI m l hml c hc hc'

theorem owned_setInfo {s : State} {own : Nat → Own} (h : Owned s own) {n a : Nat} (ha : a ∈ (own n).2) (fs : List FieldH) :
    Owned { s with infos := s.infos.modify a fun o => { o with fields := some fs } } (setOwn own n ((own n).1, (own n).2.erase a)) where
  openI m c hm := by
    have old : c ≠ a → s.openI c → State.openI { s with infos := s.infos.modify a fun o => { o with fields := some fs } } c :=
      fun hca ⟨k, ho⟩ => ⟨k, by simp only; rw [List.getElem?_modify, ho]; simp [Ne.symm hca]⟩
    unfold setOwn at hm
    split at hm
    · obtain ⟨h1, h2⟩ := mem_erase_nodup (h.nodupI n) hm
      exact old h1 (h.openI n c h2)
    · next hmn =>
      refine old ?_ (h.openI m c hm)
      rintro rfl
      exact h.apartI m n hmn c hm ha
  openC m i hm := by
    unfold setOwn at hm
    split at hm
    · exact h.openC n i hm
    · exact h.openC m i hm
  nodupI m := by
    unfold setOwn
    split
    · exact (h.nodupI n).erase a
    · exact h.nodupI m
  nodupC m := by
    unfold setOwn
    split
    · exact h.nodupC n
    · exact h.nodupC m
  apartI m l hml c hc hc' := by
    unfold setOwn at hc hc'
    split at hc <;> split at hc'
    · omega
    · exact h.apartI n l (by omega) c (mem_erase_nodup (h.nodupI n) hc).2 hc'
    · exact h.apartI m n (by omega) c hc (mem_erase_nodup (h.nodupI n) hc').2
    · exact h.apartI m l hml c hc hc'
  apartC m l hml c hc hc' := by
    unfold setOwn at hc hc'
    split at hc <;> split at hc'
    · omega
    · exact h.apartC n l (by omega) c hc hc'
    · exact h.apartC m n (by omega) c hc hc'
    · exact h.apartC m l hml c hc hc'

theorem upd_keeps {α β : Type} [DecidableEq α] {m : α → Option β} {a x : α} {b y : β} (hn : m a = none) (h : m x = some y) :
    upd m a (some b) x = some y := by
  unfold upd
  split
  · next hx => rw [hx, hn] at h; cases h
  · exact h

/-- One operation of the goroutine `n`. -/
theorem owned_exec {s : State} {own : Nat → Own} (h : Owned s own) (n : Nat) (o : Op) (ho : o.may (own n)) :
    Owned (exec o s).2 (setOwn own n (o.own (exec o s).1 (own n))) ∧ Fixed s (exec o s).2 := by
  have F := Fixed.refl s
  cases o with
  | infoLoad k => exact ⟨(setOwn_same own n).symm ▸ h, F⟩
  | codecLoad t => exact ⟨(setOwn_same own n).symm ▸ h, F⟩
  | sliceLoad c => exact ⟨(setOwn_same own n).symm ▸ h, F⟩
  | infoStore k i => exact ⟨(setOwn_same own n).symm ▸ h.heap rfl rfl, ⟨F.codec, F.info, F.key, F.codecCache, F.sliceMap⟩⟩
  | infoLoadOrStore k i =>
    simp only [Op.own, setOwn_same]
    unfold exec
    dsimp only
    split
    · exact ⟨h, F⟩
    · exact ⟨h.heap rfl rfl, ⟨F.codec, F.info, F.key, F.codecCache, F.sliceMap⟩⟩
  | codecLoadOrStore t c =>
    simp only [Op.own, setOwn_same]
    unfold exec
    dsimp only
    split
    · exact ⟨h, F⟩
    · next hn => exact ⟨h.heap rfl rfl, ⟨F.codec, F.info, F.key, fun _ _ hp => upd_keeps hn hp, F.sliceMap⟩⟩
  | sliceLoadOrStore c p =>
    simp only [Op.own, setOwn_same]
    unfold exec
    dsimp only
    split
    · exact ⟨h, F⟩
    · next hn => exact ⟨h.heap rfl rfl, ⟨F.codec, F.info, F.key, F.codecCache, fun _ _ hp => upd_keeps hn hp⟩⟩
  | newInfo k =>
    have key : ∀ (i : Nat) o, s.infos[i]? = some o → (s.infos ++ [⟨k, none⟩])[i]? = some o := fun i o ho => by
      rw [List.getElem?_append_left (List.getElem?_eq_some_iff.mp ho).1]; exact ho
    exact ⟨owned_newInfo h n k, ⟨F.codec, fun i k fs hi => key _ _ hi, fun i o hi => ⟨o, key _ _ hi, rfl⟩, F.codecCache, F.sliceMap⟩⟩
  | newCodec =>
    refine ⟨owned_newCodec h n, ⟨fun i b ho => ?_, F.info, F.key, F.codecCache, F.sliceMap⟩⟩
    show (s.codecs ++ [none])[i]? = _
    rw [List.getElem?_append_left (List.getElem?_eq_some_iff.mp ho).1]; exact ho
  | setInfo a fs =>
    refine ⟨owned_setInfo h ho fs, ⟨F.codec, fun i k fs' hi => ?_, fun i o hi => ?_, F.codecCache, F.sliceMap⟩⟩
    · show (s.infos.modify a _)[i]? = _
      by_cases hia : a = i
      · subst hia
        obtain ⟨k', hk⟩ := h.openI n a ho
        rw [hk] at hi; cases hi
      · rw [List.getElem?_modify, hi]; simp [hia]
    · show ∃ o', (s.infos.modify a _)[i]? = _ ∧ _
      rw [List.getElem?_modify, hi]
      exact ⟨_, rfl, by split <;> rfl⟩
  | setCodec a b =>
    refine ⟨owned_setCodec h ho b, ⟨fun i b' hi => ?_, F.info, F.key, F.codecCache, F.sliceMap⟩⟩
    show (s.codecs.set a (some b))[i]? = _
    by_cases hia : a = i
    · subst hia
      have hk := h.openC n a ho
      unfold State.openC at hk
      rw [hk] at hi; cases hi
    · rw [List.getElem?_set_ne hia]; exact hi

/-- In all states of a process. -/
def WriteInv (s : Sys) (own : Nat → Own) : Prop :=
  Owned s.state own ∧ ∀ (n : Nat) t, s.threads[n]? = some t → Keep (fun _ _ => True) t.prog (own n)

theorem writeInv_step {D : Decls} {s s' : Sys} {own : Nat → Own} (h : WriteInv s own) (hs : Step D s s') :
    (∃ own', WriteInv s' own') ∧ Fixed s.state s'.state := by
  cases hs with
  | call d t =>
    refine ⟨⟨own, h.1, fun n u hu => ?_⟩, Fixed.refl _⟩
    simp only at hu
    by_cases hn : n < s.threads.length
    · rw [List.getElem?_append_left hn] at hu
      exact h.2 n u hu
    · rw [List.getElem?_append_right (by omega)] at hu
      have : u = { root := t, prog := cachedStructInfoOf D d t } := by
        have := List.mem_of_getElem? hu
        simpa using this
      subst this
      exact keep_imp (fun _ _ _ => trivial) (tidy_cached D d t (own n))
  | run n t o k hn =>
    obtain ⟨h1, h2⟩ := h.2 n _ hn
    obtain ⟨h3, h4⟩ := owned_exec h.1 n o h1
    refine ⟨⟨_, h3, fun m u hu => ?_⟩, h4⟩
    simp only at hu
    unfold setOwn
    split
    · next hm =>
      subst hm
      rw [List.getElem?_set_self (List.getElem?_eq_some_iff.mp hn).1] at hu
      cases hu
      exact h2 _
    · next hm =>
      rw [List.getElem?_set_ne (Ne.symm hm)] at hu
      exact h.2 m u hu

theorem writeInv {D : Decls} {s : Sys} (h : Reachable D s) : ∃ own, WriteInv s own := by
  induction h with
  | init =>
    refine ⟨fun _ => ([], []), ⟨?_, ?_, ?_, ?_, ?_, ?_⟩, ?_⟩ <;> intros <;> simp_all
  | step s s' _ hs ih =>
    obtain ⟨own, hI⟩ := ih
    exact (writeInv_step hI hs).1

theorem fixed_steps {D : Decls} {s s' : Sys} (h : Reachable D s) (hs : Steps D s s') : Reachable D s' ∧ Fixed s.state s'.state := by
  induction hs with
  | refl => exact ⟨h, Fixed.refl _⟩
  | tail s' s'' _ hst ih =>
    obtain ⟨own, hI⟩ := writeInv ih.1
    exact ⟨.step _ _ ih.1 hst, ih.2.trans (writeInv_step hI hst).2⟩

/-! ### What a call reads -/

/-- What a codec refers to has been filled in. -/
theorem ready_refs {D : Decls} {s : State} {G : Ghost} {b : CBody} {c : Codec} (hb : BodyOK D True s G b c) :
    ∀ o ∈ b.refs, s.ready o := by
  have hh : ∀ p, s.filled p → ∀ o ∈ CBody.refs.heaps p, s.ready o := by
    intro p hp o ho
    cases p with
    | glob g => cases ho
    | heap n => cases List.mem_singleton.mp ho; exact hp
  intro o ho
  cases b with
  | ptr z p =>
    refine hh p (hb.2.2 trivial) o ?_
    cases p <;> exact ho
  | msg t i => cases List.mem_singleton.mp ho; exact hb.2.2 trivial
  | slice z p =>
    refine hh p (hb.2.2 trivial) o ?_
    cases p <;> exact ho
  | map i kc vc info =>
    obtain ⟨h1, h2, h3⟩ := hb.2.2.1 trivial
    rcases List.mem_cons.mp ho with rfl | ho
    · exact h3
    · rcases List.mem_append.mp ho with ho | ho
      · exact hh _ h1 _ ho
      · exact hh _ h2 _ ho

theorem ready_touches {D : Decls} {s : State} {G : Ghost} (hI : Inv D True s G) {i : Nat} (hi : s.ready (.info i)) {o : Obj} (h : Touches s i o) :
    s.ready o := by
  induction h with
  | root => exact hi
  | field j k fs f n _ hj hf hn _ =>
    have := ((hI.info j k fs hj).2 f hf).2 trivial
    rw [hn] at this
    exact this
  | ref n b o _ hb ho _ => exact ready_refs (hI.body n b hb) o ho

theorem Fixed.same {s s' : State} (h : Fixed s s') {o : Obj} (ho : s.ready o) : SameObj s s' o := by
  cases o with
  | info i =>
    obtain ⟨k, fs, hi⟩ := ho
    exact ⟨_, hi, h.info _ _ _ hi⟩
  | codec n =>
    obtain ⟨b, hb⟩ := ho
    exact ⟨_, hb, h.codec _ _ hb⟩

theorem Fixed.touches {s s' : State} (h : Fixed s s') {i : Nat} (hr : ∀ o, Touches s i o → s.ready o) (o : Obj) :
    Touches s' i o ↔ Touches s i o := by
  constructor
  · intro ht
    induction ht with
    | root => exact .root
    | field j k fs f n _ hj hf hn ih =>
      obtain ⟨k', fs', h1⟩ := hr _ ih
      have h2 := h.info _ _ _ h1
      rw [hj] at h2; cases h2
      exact .field j k fs f n ih h1 hf hn
    | ref n b o _ hb ho ih =>
      obtain ⟨b', h1⟩ := hr _ ih
      have h2 := h.codec _ _ h1
      rw [hb] at h2; cases h2
      exact .ref n b o ih h1 ho
  · intro ht
    induction ht with
    | root => exact .root
    | field j k fs f n _ hj hf hn ih => exact .field j k fs f n ih (h.info _ _ _ hj) hf hn
    | ref n b o _ hb ho ih => exact .ref n b o ih (h.codec _ _ hb) ho

/-- The codec the pointer leads to can be come to. -/
def TouchesPtr (s : State) (i : Nat) : CPtr → Prop
  | .glob _ => True
  | .heap n => Touches s i (.codec n)

/-- Reads at different times give what reads at one time give. -/
theorem reads_same {R : State → Prop} {s : State} {i : Nat} (hR : ∀ s', R s' → Fixed s s') (hr : ∀ o, Touches s i o → s.ready o) {d : Nat} {p : CPtr}
    {c : Codec} (h : ReadsAs R d p c) (hp : TouchesPtr s i p) : c = s.codecAt d p := by
  have back : ∀ {s' n b}, R s' → Touches s i (.codec n) → s'.codecs[n]? = some (some b) → s.codecs[n]? = some (some b) := by
    intro s' n b hs hn hb
    obtain ⟨b', hb'⟩ := hr _ hn
    have := (hR s' hs).codec n b' hb'
    rw [hb] at this
    cases this
    exact hb'
  have sub : ∀ {n b}, Touches s i (.codec n) → s.codecs[n]? = some (some b) → ∀ p, (∀ o ∈ CBody.refs.heaps p, o ∈ b.refs) → TouchesPtr s i p := by
    intro n b hn hb p hp
    cases p with
    | glob g => trivial
    | heap m => exact .ref n b _ hn hb (hp _ List.mem_cons_self)
  induction h with
  | glob d g => cases d <;> rfl
  | deep n => rfl
  | empty d n s' hs hb =>
    obtain ⟨b, hb'⟩ := hr _ hp
    exact absurd ((hR s' hs).codec n b hb') (hb b)
  | ptr d n s' z p c hs hb _ ih =>
    have h1 := back hs hp hb
    have h2 := ih (sub hp h1 p (fun o ho => by cases p <;> exact ho))
    simp only [State.codecAt, h1, h2]
  | msg d n s' t j hs hb =>
    have h1 := back hs hp hb
    simp only [State.codecAt, h1]
  | slice d n s' z p c hs hb _ ih =>
    have h1 := back hs hp hb
    have h2 := ih (sub hp h1 p (fun o ho => by cases p <;> exact ho))
    simp only [State.codecAt, h1, h2]
  | map d n s' s'' j kc vc info k fk fv c₁ c₂ c₃ c₄ hs hb hs' hi _ _ _ _ ih₁ ih₂ ih₃ ih₄ =>
    have h1 := back hs hp hb
    have ht : Touches s i (.info info) := .ref n _ _ hp h1 List.mem_cons_self
    obtain ⟨k', fs, h2⟩ := hr _ ht
    have h3 := (hR s'' hs').info _ _ _ h2
    rw [hi] at h3
    cases h3
    have e₁ := ih₁ (sub hp h1 kc (fun o ho => List.mem_cons_of_mem _ (List.mem_append_left _ ho)))
    have e₂ := ih₂ (sub hp h1 vc (fun o ho => List.mem_cons_of_mem _ (List.mem_append_right _ ho)))
    have hf : ∀ f ∈ [fk, fv], TouchesPtr s i f.codec := by
      intro f hf
      cases hc : f.codec with
      | glob g => trivial
      | heap m => exact .field info k _ f m ht h2 hf hc
    have e₃ := ih₃ (hf fk (by simp))
    have e₄ := ih₄ (hf fv (by simp))
    simp only [State.codecAt, h1, h2, e₁, e₂, e₃, e₄]
  | entry d n s' s'' j kc vc info hs hb hs' hi =>
    have h1 := back hs hp hb
    have ht : Touches s i (.info info) := .ref n _ _ hp h1 List.mem_cons_self
    obtain ⟨k', fs, h2⟩ := hr _ ht
    have h3 := (hR s'' hs').info _ _ _ h2
    simp only [State.codecAt, h1, h2]
    split
    · next heq => cases heq; exact absurd h3 (hi _ _ _)
    · rfl

/-- Reads at one time are reads. -/
theorem reads_self {R : State → Prop} {s : State} (hs : R s) : ∀ (d : Nat) (p : CPtr), ReadsAs R d p (s.codecAt d p)
  | d, .glob g => by cases d <;> exact .glob _ g
  | 0, .heap n => .deep n
  | d + 1, .heap n => by
    unfold State.codecAt
    split
    · next z c h => exact .ptr d n s z c _ hs h (reads_self hs d c)
    · next t i h => exact .msg d n s t i hs h
    · next z c h => exact .slice d n s z c _ hs h (reads_self hs d c)
    · next i kc vc info h =>
      split
      · next k fk fv hi =>
        exact .map d n s s i kc vc info k fk fv _ _ _ _ hs h hs hi (reads_self hs d _) (reads_self hs d _) (reads_self hs d _) (reads_self hs d _)
      · next hi => exact .entry d n s s i kc vc info hs h hs fun k fk fv he => hi k fk fv he
    · next h1 h2 h3 h4 =>
      refine .empty d n s hs fun b hb => ?_
      cases b with
      | ptr z c => exact h1 z c hb
      | msg t i => exact h2 t i hb
      | slice z c => exact h3 z c hb
      | map i kc vc info => exact h4 i kc vc info hb

end Pb.Cache
