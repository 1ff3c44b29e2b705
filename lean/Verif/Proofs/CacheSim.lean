import Verif.Proofs.CacheWalk
/-
Type infos found through their addresses work like those of analysis without caches.
-/
namespace Pb.Cache

/-! ### equal up to the names of types -/

/-- Two codecs are the same but for the names of message types, which `R` relates. -/
inductive CSim (R : Nat → TypeId → Prop) : Codec → Codec → Prop
  | normal (s) : CSim R (.normal s) (.normal s)
  | required (s) : CSim R (.required s) (.required s)
  | option (s) : CSim R (.option s) (.option s)
  | bytes : CSim R .bytes .bytes
  | ptr (z c c') : CSim R c c' → CSim R (.ptr z c) (.ptr z c')
  | msg (i t) : R i t → CSim R (.msg i) (.msg t)
  | slice (z c c') : CSim R c c' → CSim R (.slice z c) (.slice z c')
  | map (i kc vc kd vd kc' vc' kd' vd') : CSim R kc kc' → CSim R vc vc' → CSim R kd kd' → CSim R vd vd' →
      CSim R (.map i kc vc kd vd) (.map i kc' vc' kd' vd')

/-- The same for fields. -/
inductive FSim (R : Nat → TypeId → Prop) : List Field → List Field → Prop
  | nil : FSim R [] []
  | cons (o t c c' fs fs') : CSim R c c' → FSim R fs fs' → FSim R ({ offset := o, tag := t, codec := c } :: fs) ({ offset := o, tag := t, codec := c' } :: fs')

/-- The same for all message types. -/
def ESim (R : Nat → TypeId → Prop) (e e' : Env) : Prop := ∀ i t, R i t → (e i).zero = (e' t).zero ∧ FSim R (e i).fields (e' t).fields

variable {R : Nat → TypeId → Prop}

theorem codecSize_sim {rec rec' : TypeId → Val → Except Fault Nat} (hr : ∀ i t, R i t → rec i = rec' t) {c c' : Codec} (h : CSim R c c') :
    codecSize rec c = codecSize rec' c' := by
  induction h with
  | normal s | required s | option s | bytes => rfl
  | ptr z c c' _ ih => funext p f; cases p <;> simp only [codecSize, ih]
  | msg i t hit => funext p f; cases p <;> simp only [codecSize, hr i t hit]
  | slice z c c' _ ih => funext p f; cases p <;> simp only [codecSize, ih]
  | map i kc vc kd vd kc' vc' kd' vd' _ _ _ _ ih1 ih2 => funext p f; cases p <;> simp only [codecSize, ih1, ih2]

theorem structSize_sim {sz sz' : Codec → Val → FTag → Except Fault Nat} (hs : ∀ c c', CSim R c c' → sz c = sz' c') {fs fs' : List Field}
    (h : FSim R fs fs') (p : Val) : structSize sz fs p = structSize sz' fs' p := by
  unfold structSize
  generalize 0 = n
  induction h generalizing n with
  | nil => rfl
  | cons o t c c' fs fs' hc _ ih =>
    simp only [sumSizes, hs c c' hc, ih]

theorem sizeMsg_sim {e e' : Env} (he : ESim R e e') : ∀ d i t, R i t → sizeMsg e d i = sizeMsg e' d t
  | 0, _, _, _ => rfl
  | d + 1, i, t, h => by
    funext v
    exact structSize_sim (fun c c' hc => codecSize_sim (sizeMsg_sim he d) hc) (he i t h).2 v

theorem codecEncode_sim {sz sz' : TypeId → Val → Except Fault Nat} (hs : ∀ i t, R i t → sz i = sz' t)
    {rec rec' : TypeId → Bytes → Val → Except Fault Bytes} (hr : ∀ i t, R i t → rec i = rec' t) {c c' : Codec} (h : CSim R c c') :
    codecEncode sz rec c = codecEncode sz' rec' c' := by
  induction h with
  | normal s | required s | option s | bytes => rfl
  | ptr z c c' _ ih => funext b p f; cases p <;> simp only [codecEncode, ih]
  | msg i t hit => funext b p f; cases p <;> simp only [codecEncode, hr i t hit, hs i t hit]
  | slice z c c' _ ih => funext b p f; cases p <;> simp only [codecEncode, ih]
  | map i kc vc kd vd kc' vc' kd' vd' h1 h2 _ _ ih1 ih2 =>
    funext b p f; cases p <;> simp only [codecEncode, ih1, ih2, codecSize_sim hs h1]

theorem structEncode_sim {en en' : Codec → Bytes → Val → FTag → Except Fault Bytes} (hs : ∀ c c', CSim R c c' → en c = en' c')
    {fs fs' : List Field} (h : FSim R fs fs') (b : Bytes) (p : Val) : structEncode en fs b p = structEncode en' fs' b p := by
  unfold structEncode
  induction h generalizing b with
  | nil => rfl
  | cons o t c c' fs fs' hc _ ih =>
    simp only [appendAll, hs c c' hc, ih]

theorem encodeMsg_sim {e e' : Env} (he : ESim R e e') : ∀ d i t, R i t → encodeMsg e d i = encodeMsg e' d t
  | 0, _, _, _ => rfl
  | d + 1, i, t, h => by
    funext b v
    exact structEncode_sim (fun c c' hc => codecEncode_sim (sizeMsg_sim he d) (encodeMsg_sim he d) hc) (he i t h).2 b v

theorem codecDecode_sim {zs zs' : TypeId → Val} (hz : ∀ i t, R i t → zs i = zs' t)
    {rec rec' : TypeId → Bytes → Val → Except Fault DRes} (hr : ∀ i t, R i t → rec i = rec' t) {c c' : Codec} (h : CSim R c c') :
    codecDecode zs rec c = codecDecode zs' rec' c' := by
  induction h with
  | normal s | required s | option s | bytes => rfl
  | ptr z c c' _ ih => funext b p; cases p <;> simp only [codecDecode, ih]
  | msg i t hit => funext b p; cases p <;> simp only [codecDecode, hr i t hit, hz i t hit]
  | slice z c c' _ ih => funext b p; cases p <;> simp only [codecDecode, ih]
  | map i kc vc kd vd kc' vc' kd' vd' _ _ _ _ _ _ ih3 ih4 =>
    funext b p; cases p <;> simp only [codecDecode, ih3, ih4]

theorem dfields_sim {zs zs' : TypeId → Val} (hz : ∀ i t, R i t → zs i = zs' t)
    {rec rec' : TypeId → Bytes → Val → Except Fault DRes} (hr : ∀ i t, R i t → rec i = rec' t) {fs fs' : List Field} (h : FSim R fs fs') :
    dfields zs rec fs = dfields zs' rec' fs' := by
  unfold dfields
  induction h with
  | nil => rfl
  | cons o t c c' fs fs' hc _ ih => simp only [List.map_cons, ih, codecDecode_sim hz hr hc]

theorem decodeMsg_sim {e e' : Env} (he : ESim R e e') : ∀ d i t, R i t → decodeMsg e d i = decodeMsg e' d t
  | 0, _, _, _ => rfl
  | d + 1, i, t, h => by
    funext b v
    unfold decodeMsg
    rw [dfields_sim (fun i t h => (he i t h).1) (decodeMsg_sim he d) (he i t h).2]

/-! ### addresses -/

/-- Nesting of a codec. -/
def depthC : Codec → Nat
  | .ptr _ c => depthC c + 1
  | .slice _ c => depthC c + 1
  | .map _ kc vc kd vd => max (max (depthC kc) (depthC vc)) (max (depthC kd) (depthC vd)) + 1
  | _ => 0

/-- How many codecs are nested at most `k` deep. -/
def countC (G : Ghost) (len k : Nat) : Nat := (List.range len).countP fun n => depthC (G n) ≤ k

theorem countP_lt {α : Type} {p q : α → Bool} : ∀ {l : List α} {a : α}, a ∈ l → (∀ x ∈ l, p x = true → q x = true) → p a = false → q a = true →
    l.countP p < l.countP q := by
  intro l
  induction l with
  | nil => intro a h; cases h
  | cons b l ih =>
    intro a ha hpq hp hq
    have hle : l.countP p ≤ l.countP q := List.countP_mono_left fun x hx => hpq x (List.mem_cons_of_mem _ hx)
    rcases List.mem_cons.mp ha with rfl | ha
    · rw [List.countP_cons_of_neg (by simp [hp]), List.countP_cons_of_pos hq]; omega
    · have := ih ha (fun x hx => hpq x (List.mem_cons_of_mem _ hx)) hp hq
      simp only [List.countP_cons]
      have hb := hpq b List.mem_cons_self
      cases hpb : p b with
      | false => simp; omega
      | true => simp [hb hpb]; omega

theorem countC_le (G : Ghost) (len k : Nat) : countC G len k ≤ len := by
  unfold countC
  calc _ ≤ (List.range len).length := List.countP_le_length
    _ = len := List.length_range

theorem countC_mono (G : Ghost) (len : Nat) {k k' : Nat} (h : k ≤ k') : countC G len k ≤ countC G len k' :=
  List.countP_mono_left fun x _ hx => by simp only [decide_eq_true_eq] at *; omega

theorem countC_lt {G : Ghost} {len k n : Nat} (hn : n < len) (hk : k < depthC (G n)) : countC G len k < countC G len (depthC (G n)) := by
  refine countP_lt (List.mem_range.mpr hn) (fun x _ hx => ?_) ?_ ?_
  · simp only [decide_eq_true_eq] at *; omega
  · simp only [decide_eq_false_iff_not]; omega
  · simp

theorem countC_pos {G : Ghost} {len n : Nat} (hn : n < len) : 0 < countC G len (depthC (G n)) :=
  List.countP_pos_iff.mpr ⟨n, List.mem_range.mpr hn, by simp⟩

variable {D : Decls}

/-- A type info at address `i` is that of the type `t`. -/
def At (s : State) (i : Nat) (t : TypeId) : Prop := s.keyIs i (.named t) ∧ s.closed i

theorem glob_sim (g : Glob) : CSim R g.codec g.codec := by cases g <;> constructor

theorem codecAt_glob (s : State) (d : Nat) (g : Glob) : s.codecAt d (.glob g) = g.codec := by
  cases d <;> rfl

theorem keyIs_unique {s : State} {i : Nat} {k k' : InfoKey} (h : s.keyIs i k) (h' : s.keyIs i k') : k = k' := by
  obtain ⟨fs, h⟩ := h
  obtain ⟨fs', h'⟩ := h'
  rw [h] at h'
  cases h'
  rfl

theorem codecAt_sim {s : State} {G : Ghost} (hI : Inv D True s G) : ∀ (d : Nat) (p : CPtr), s.filled p →
    (∀ n, p = .heap n → countC G s.codecs.length (depthC (G n)) ≤ d) → CSim (At s) (s.codecAt d p) (lab G p)
  | d, .glob g, _, _ => by rw [codecAt_glob]; exact glob_sim g
  | 0, .heap n, hf, hd => by
    have := countC_pos (G := G) (len := s.codecs.length) (n := n) (has_of_filled hf)
    have := hd n rfl
    omega
  | d + 1, .heap n, hf, hd => by
    have hn : n < s.codecs.length := has_of_filled hf
    obtain ⟨b, hb⟩ := hf
    have hd := hd n rfl
    have hok := hI.body n b hb
    have child : ∀ p, s.filled p → depthC (lab G p) < depthC (G n) → CSim (At s) (s.codecAt d p) (lab G p) := by
      intro p hp hlt
      refine codecAt_sim hI d p hp ?_
      rintro m rfl
      have := countC_lt hn hlt
      simp only [lab] at this
      omega
    unfold State.codecAt
    simp only [hb, lab]
    cases b with
    | ptr z p =>
      obtain ⟨h1, h2, h3⟩ := hok
      rw [h1]
      exact .ptr _ _ _ (child p (h3 trivial) (by rw [h1]; simp only [depthC]; omega))
    | slice z p =>
      obtain ⟨h1, h2, h3⟩ := hok
      rw [h1]
      exact .slice _ _ _ (child p (h3 trivial) (by rw [h1]; simp only [depthC]; omega))
    | msg t i =>
      obtain ⟨h1, h2, h3⟩ := hok
      rw [h1]
      exact .msg _ _ ⟨h2, h3 trivial⟩
    | map mi kc vc info =>
      obtain ⟨h1, h2, h3, k, fk, fv, h4, h5, h6⟩ := hok
      obtain ⟨hk, hv, k', fs, hi⟩ := h3 trivial
      have : k' = k := keyIs_unique ⟨some fs, hi⟩ h4
      subst this
      obtain ⟨hw, hfs⟩ := hI.info _ _ _ hi
      rw [h5] at hw
      match fs, hw, hfs, hi with
      | [a, b], hw, hfs, hi =>
        simp only [List.map_cons, List.map_nil, Except.ok.injEq, List.cons.injEq, and_true] at hw
        obtain ⟨rfl, rfl⟩ := hw
        simp only [hi]
        rw [h6]
        simp only [labF] at h6 ⊢
        refine .map _ _ _ _ _ _ _ _ _ (child _ hk ?_) (child _ hv ?_)
          (child _ ((hfs a List.mem_cons_self).2 trivial) ?_) (child _ ((hfs b (List.mem_cons_of_mem _ List.mem_cons_self)).2 trivial) ?_)
        all_goals rw [h6]; simp only [depthC]; omega
      | [], hw, _, _ => cases hw
      | [_], hw, _, _ => cases hw
      | _ :: _ :: _ :: _, hw, _, _ => cases hw

theorem env_sim {s : State} {G : Ghost} (hI : Inv D True s G) : ESim (At s) (s.env D) (envOf D) := by
  rintro i t ⟨h1, k, fs, hi⟩
  have : k = .named t := keyIs_unique ⟨_, hi⟩ h1
  subst this
  obtain ⟨hw, hfs⟩ := hI.info _ _ _ hi
  have e1 : s.env D i = { fields := fs.map fun f => { offset := f.offset, tag := f.tag, codec := s.codecAt (s.codecs.length + 1) f.codec }
                          zero := zeroStruct (D t) } := by
    unfold State.env; simp only [hi]; rfl
  have e2 : envOf D t = { fields := fs.map (labF G), zero := zeroStruct (D t) } := by
    unfold envOf walkStruct
    rw [show D t = (InfoKey.named t).decl D from rfl, hw]
    rfl
  rw [e1, e2]
  refine ⟨rfl, ?_⟩
  clear e1 e2 hw hi
  dsimp only
  induction fs with
  | nil => exact .nil
  | cons f fs ih =>
    refine .cons _ _ _ _ _ _ (codecAt_sim hI _ _ ((hfs f List.mem_cons_self).2 trivial) fun n _ => ?_)
      (ih fun g hg => hfs g (List.mem_cons_of_mem _ hg))
    have := countC_le G s.codecs.length (depthC (G n))
    omega

/-! ### the API functions -/

theorem works {s : State} {G : Ghost} (hI : Inv D True s G) {i : Nat} {t : TypeId} (h : At s i t) : Works D s i t where
  size v := by unfold sizeAt Pb.size; simp only [sizeMsg_sim (env_sim hI) _ i t h]
  marshal v := by
    unfold marshalAt Pb.marshal
    simp only [sizeMsg_sim (env_sim hI) _ i t h, encodeMsg_sim (env_sim hI) _ i t h]
  unmarshal b v := by
    unfold unmarshalAt Pb.unmarshal
    simp only [decodeMsg_sim (env_sim hI) _ i t h]
    split
    · rfl
    · simp only [bind, Except.bind, pure, Except.pure]
      generalize decodeMsg (envOf D) (b.length + 1) t b v = q
      rcases q with e | q
      · rfl
      · cases q with
        | err v e => rfl
        | ok v n =>
          simp only
          split <;> rfl

/-- If nothing is unfinished, whatever is referred to is filled in. -/
theorem Inv.all {s : State} {G : Ghost} (hI : Inv D False s G) (hc : ∀ n, ¬ s.openC n) (hi : ∀ i, ¬ s.openI i) : Inv D True s G := by
  have fill : ∀ p, s.has p → s.filled p := by
    intro p hp
    cases p with
    | glob g => trivial
    | heap n =>
      have hn : n < s.codecs.length := hp
      have : s.codecs[n]? = some s.codecs[n] := List.getElem?_eq_getElem hn
      cases hb : s.codecs[n] with
      | none => exact absurd (by rw [hb] at this; exact this) (hc n)
      | some b => exact ⟨b, by rw [this, hb]⟩
  have close : ∀ i k, s.keyIs i k → s.closed i := by
    rintro i k ⟨fs, h⟩
    cases fs with
    | none => exact absurd ⟨k, h⟩ (hi i)
    | some fs => exact ⟨k, fs, h⟩
  exact
    { body := fun n b hb => by
        have := hI.body n b hb
        cases b with
        | ptr z p => exact ⟨this.1, this.2.1, fun _ => fill _ this.2.1⟩
        | msg t i => exact ⟨this.1, this.2.1, fun _ => close _ _ this.2.1⟩
        | slice z p => exact ⟨this.1, this.2.1, fun _ => fill _ this.2.1⟩
        | map mi kc vc info =>
          obtain ⟨h1, h2, h3, k, fk, fv, h4, h5⟩ := this
          exact ⟨h1, h2, fun _ => ⟨fill _ h1, fill _ h2, close _ _ h4⟩, k, fk, fv, h4, h5⟩
      info := fun i k fs h => ⟨(hI.info i k fs h).1, fun f hf => ⟨((hI.info i k fs h).2 f hf).1, fun _ => fill _ ((hI.info i k fs h).2 f hf).1⟩⟩
      infoCache := hI.infoCache
      codecCache := hI.codecCache
      sliceMap := hI.sliceMap }

end Pb.Cache
