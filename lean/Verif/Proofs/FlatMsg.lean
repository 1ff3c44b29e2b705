import Verif.Proofs.FlatMap
/-
Whole messages on raw memory, and the compiler's layout (helper lemmas for `Props/Flat.lean`).
-/
namespace Pb.Flat

variable {lay : Lay} {m m' : Mem}

theorem codec_sim (hlay : lay.OK) {env : Env} (hwf : WFEnv lay.shapes env) {P : TypeId → Nat → Prop} {rec recF}
    {grow : Nat → Nat → Nat} (hgrow : ∀ c n, n ≤ grow c n) (hrec : ∀ t, SimMsg lay t (P t) (rec t) (recF t)) : ∀ c : Codec, c.WF →
    Sim lay c.shape (codecDecode (fun t => (env t).zero) rec c) (codecDecodeF grow lay.size recF c)
  | .normal s, _ => sim_scalar s
  | .required s, _ => sim_scalar s
  | .option s, _ => sim_option s
  | .bytes, _ => sim_bytes hgrow
  | .ptr z c, h => by
    obtain ⟨rfl, hc⟩ := h
    have := sim_ptr (codec_sim hlay hwf hgrow hrec c hc)
    intro b m a v B r h1 h2 h3
    obtain ⟨m', g1, g2⟩ := this b m a v B r h1 h2 (by
      simp only [codecDecode] at h3
      cases v <;> exact h3)
    exact ⟨m', g1, g2⟩
  | .msg t, _ => sim_msg hlay (hwf.zero t) (hrec t) grow
  | .slice z c, h => sim_slice (codec_sim hlay hwf hgrow hrec c h.2) h.1
  | .map i kc vc kd vd, h => by
    obtain ⟨h1, h2, h3, h4, h5, _, _, h8, h9⟩ := h
    exact sim_map h1 h2 h3 h4 h5 (codec_sim hlay hwf hgrow hrec kd h8) (codec_sim hlay hwf hgrow hrec vd h9)

theorem codec_size_pos (c : Codec) : 0 < c.shape.size := by
  cases c with
  | normal s | required s => cases s <;> simp [Codec.shape, Scalar.shape, Shape.size]
  | option s => exact opt_size_pos _
  | _ => simp [Codec.shape, Shape.size]

/-- The bytes of the tagged fields of a message type. -/
def TaggedCells (lay : Lay) (env : Env) (t : TypeId) (i : Nat) : Prop :=
  ∃ f ∈ (env t).fields, region (lay.off t f.offset) f.codec.shape.size i

theorem decodeMsg_sim (hlay : lay.OK) {env : Env} (hwf : WFEnv lay.shapes env) {grow : Nat → Nat → Nat}
    (hgrow : ∀ c n, n ≤ grow c n) : ∀ d t, SimMsg lay t (TaggedCells lay env t) (decodeMsg env d t) (decodeMsgF grow lay env d t)
  | 0, t => by intro bs m b v B r _ _ h; cases h
  | d + 1, t => by
    intro bs m b v B r h hn hr
    obtain ⟨vs, cs, rfl, h1, h2, h3⟩ := h
    have hslot : ∀ f ∈ (env t).fields, (lay.slots t)[f.offset]? = some (lay.off t f.offset, f.codec.shape) := by
      intro f hf
      obtain ⟨o, ho⟩ := shapes_get (hwf.slot t f hf)
      rw [off_of ho]; exact ho
    have hfs : ∀ fs : List Field, (∀ f ∈ fs, f ∈ (env t).fields) →
        FieldsSim lay (lay.slots t) (dfields (fun t => (env t).zero) (decodeMsg env d) fs)
          (dfieldsF grow lay (decodeMsgF grow lay env d) t fs) := by
      intro fs
      induction fs with
      | nil => intro _; exact .nil
      | cons f fs ih =>
        intro hsub
        have hf := hsub f (by simp)
        exact .cons _ _ f.codec.shape _ _ rfl rfl (hslot f hf)
          (codec_sim hlay hwf hgrow (fun t => decodeMsg_sim hlay hwf hgrow d t) f.codec (hwf.codec t f hf))
          (ih fun g hg => hsub g (by simp [hg]))
    obtain ⟨m', vs', B', f1, f2, f3, f4, f5, f6⟩ := structDecode_sim (hlay.apart t) (hlay.aligned t)
      (hfs (env t).fields fun _ h => h) ⟨cs, h1, h2, h3⟩ hn hr
    refine ⟨m', B', f1, ?_, f4, f5.weaken ?_ (fun _ h => h), f6⟩
    · obtain ⟨cs', k1, k2, k3⟩ := f3
      exact ⟨vs', cs', f2, k1, k2, k3⟩
    · intro i ⟨num, g, s, k, e1, e2, e3⟩
      have hg := fieldIndexF_mem e1
      simp only [dfieldsF, List.mem_map] at hg
      obtain ⟨f, hf, rfl⟩ := hg
      refine ⟨f, hf, ?_⟩
      have hpos := codec_size_pos f.codec
      have hj := hslot f hf
      simp only at e2 e3
      unfold region at e3 ⊢
      have hlt : ∀ {i : Nat} {x}, (lay.slots t)[i]? = some x → ∃ h : i < (lay.slots t).length, (lay.slots t)[i] = x :=
        fun h => List.getElem?_eq_some_iff.mp h
      obtain ⟨hk, hk'⟩ := hlt e2
      obtain ⟨hj1, hj2⟩ := hlt hj
      rcases Nat.lt_trichotomy k f.offset with hh | hh | hh
      · have := List.pairwise_iff_getElem.mp (hlay.apart t) k f.offset hk hj1 hh
        rw [hk', hj2] at this
        simp only at this
        omega
      · subst hh
        rw [hk'] at hj2
        cases hj2
        exact e3
      · have := List.pairwise_iff_getElem.mp (hlay.apart t) f.offset k hj1 hk hh
        rw [hk', hj2] at this
        simp only at this
        omega

/-! ### The compiler's layout -/

theorem place_ge : ∀ (fs : List GoField) (o : Nat), ∀ p ∈ place o fs, o ≤ p.1
  | [], _, p, h => by simp [place] at h
  | f :: fs, o, p, h => by
    have h1 := le_alignUp f.align o
    rcases List.mem_cons.mp h with rfl | h
    · exact h1
    · have := place_ge fs _ p h
      omega

theorem placeEnd_ge : ∀ (fs : List GoField) (o : Nat), o ≤ placeEnd o fs
  | [], _ => Nat.le_refl _
  | f :: fs, o => by
    have h1 := le_alignUp f.align o
    have := placeEnd_ge fs (alignUp f.align o + f.size)
    simp only [placeEnd]
    omega

theorem place_apart : ∀ (fs : List GoField) (o : Nat), (∀ f ∈ fs, f.OK) →
    (place o fs).Pairwise fun a b => a.1 + a.2.size ≤ b.1
  | [], _, _ => .nil
  | f :: fs, o, h => by
    refine List.pairwise_cons.mpr ⟨fun p hp => ?_, place_apart fs _ fun g hg => h g (by simp [hg])⟩
    have h1 := place_ge fs _ p hp
    have h2 := (h f (by simp)).1
    simp only
    omega

theorem place_within : ∀ (fs : List GoField) (o : Nat), (∀ f ∈ fs, f.OK) → ∀ p ∈ place o fs, p.1 + p.2.size ≤ placeEnd o fs
  | [], _, _, p, h => by simp [place] at h
  | f :: fs, o, hf, p, h => by
    rcases List.mem_cons.mp h with rfl | h
    · have h1 := placeEnd_ge fs (alignUp f.align o + f.size)
      have h2 := (hf f (by simp)).1
      simp only [placeEnd]
      omega
    · exact place_within fs _ (fun g hg => hf g (by simp [hg])) p h

theorem place_aligned : ∀ (fs : List GoField) (o : Nat), (∀ f ∈ fs, f.OK) → ∀ p ∈ place o fs, p.1 % p.2.align = 0
  | [], _, _, p, h => by simp [place] at h
  | f :: fs, o, hf, p, h => by
    rcases List.mem_cons.mp h with rfl | h
    · obtain ⟨_, h2, h3⟩ := hf f (by simp)
      have h4 := alignUp_mod h2 o
      simp only
      exact Nat.mod_eq_zero_of_dvd (Nat.dvd_trans (Nat.dvd_of_mod_eq_zero h3) (Nat.dvd_of_mod_eq_zero h4))
    · exact place_aligned fs _ (fun g hg => hf g (by simp [hg])) p h

theorem goLay_ok (types : TypeId → List GoField) (h : ∀ t, ∀ f ∈ types t, f.OK) : (goLay types).OK where
  apart t := place_apart _ _ (h t)
  within t p hp := Nat.le_trans (place_within _ _ (h t) p hp) (le_alignUp _ _)
  aligned t := place_aligned _ _ (h t)

end Pb.Flat
