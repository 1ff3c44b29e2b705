import Verif.Spec.Support
import Verif.Proofs.Safe
/-
Size and encode succeed and agree.
-/
namespace Pb
open Spec

/-- The payload of a scalar as the code writes it. -/
def pay : Scalar → Val → Bytes
  | .bool, .b8 x => [if x then 1#8 else 0#8]
  | .string, .str s => leb128 (len64 s).toNat ++ s
  | .float32, .w32 x | .fixed32, .w32 x => base256 4 x.toNat
  | .float64, .w64 x | .fixed64, .w64 x => base256 8 x.toNat
  | .int32, .w32 x => leb128 (sext x).toNat
  | .uint32, .w32 x => leb128 (zext x).toNat
  | .int64, .w64 x | .uint64, .w64 x => leb128 x.toNat
  | .zigzag32, .w32 x => leb128 (encodeZigZag64 (sext x)).toNat
  | .zigzag64, .w64 x => leb128 (encodeZigZag64 x).toNat
  | _, _ => []

/-- Whether a slot of scalar shape holds the zero value. -/
def isZero : Val → Bool
  | .b8 x => !x
  | .w32 x => x = 0#32
  | .w64 x => x = 0#64
  | .str s => s = []
  | _ => false

theorem f32Present_eq (x : U32) : f32Present x = !decide (x = 0#32) := by
  unfold f32Present
  by_cases h0 : x = 0#32
  · subst h0; decide
  · by_cases h1 : x = 0x80000000#32
    · subst h1; decide
    · simp [h0, h1]

theorem f64Present_eq (x : U64) : f64Present x = !decide (x = 0#64) := by
  unfold f64Present
  by_cases h0 : x = 0#64
  · subst h0; decide
  · by_cases h1 : x = 0x8000000000000000#64
    · subst h1; decide
    · simp [h0, h1]

theorem isZero_iff {L : Layout} {s : Scalar} {v : Val} (h : Fits L s.shape v) : isZero v = true ↔ v = s.shape.zero := by
  cases s <;> simp only [Scalar.shape] at * <;> cases h <;> simp [isZero, Shape.zero]

theorem encodeRequired_eq {L : Layout} {s : Scalar} {v : Val} (f : FTag) (h : Fits L s.shape v) :
    encodeRequired s [] v f = .ok (leb128 f.wiretag.toNat ++ pay s v) := by
  cases s <;> simp only [Scalar.shape] at h <;> cases h <;>
    simp [encodeRequired, pay, readB8, read32, read64, readStr, bind, Except.bind, pure, Except.pure,
      appendVarint_eq, encodeLE32_eq, encodeLE64_eq]
  split <;> rfl

theorem encodeNormal_eq {L : Layout} {s : Scalar} {v : Val} (f : FTag) (h : Fits L s.shape v) :
    encodeNormal s [] v f = .ok (if isZero v then [] else leb128 f.wiretag.toNat ++ pay s v) := by
  cases s <;> simp only [Scalar.shape] at h <;> cases h <;>
    simp [encodeNormal, pay, readB8, read32, read64, readStr, bind, Except.bind, pure, Except.pure,
      appendVarint_eq, encodeLE32_eq, encodeLE64_eq, isZero, f32Present_eq, f64Present_eq] <;> split <;> simp_all

theorem sizeRequired_eq {L : Layout} {s : Scalar} {v : Val} (f : FTag) (h : Fits L s.shape v) :
    sizeRequired s v f = .ok ((pay s v).length + f.tagsize) := by
  cases s <;> simp only [Scalar.shape] at h <;> cases h <;>
    simp [sizeRequired, pay, read32, read64, readStr, bind, Except.bind, pure, Except.pure,
      sizeOfVarint_eq, base256_length, sizeOfVarlen, len64]

theorem sizeNormal_eq {L : Layout} {s : Scalar} {v : Val} (f : FTag) (h : Fits L s.shape v) :
    sizeNormal s v f = .ok (if isZero v then 0 else (pay s v).length + f.tagsize) := by
  cases s <;> simp only [Scalar.shape] at h <;> cases h <;>
    simp [sizeNormal, pay, readB8, read32, read64, readStr, bind, Except.bind, pure, Except.pure,
      sizeOfVarint_eq, base256_length, sizeOfVarlen, len64, isZero, f32Present_eq, f64Present_eq] <;>
      split <;> simp_all

theorem sext_toInt (x : U32) : (sext x).toInt = x.toInt := by
  rw [sext, BitVec.toInt_signExtend_of_le (by omega)]

theorem sext_setWidth (x : U32) : (sext x).setWidth 32 = x := by
  apply BitVec.eq_of_getLsbD_eq
  intro i hi
  have : i < 64 := by omega
  simp [sext, BitVec.getElem_signExtend, hi, this]

theorem zext_setWidth (x : U32) : (zext x).setWidth 32 = x := by
  apply BitVec.eq_of_toNat_eq
  simp [zext]

theorem tag_length {f : FTag} (h : f.OK) : (leb128 f.wiretag.toNat).length = f.tagsize := by
  rw [h, sizeOfVarint_eq]

/-- Encoding succeeds and has the announced size. -/
def SizedAs (sz : Except Fault Nat) (enc : Except Fault Bytes) : Prop :=
  ∃ bs, enc = .ok bs ∧ sz = .ok bs.length

theorem sized_all {α} (g : α → Except Fault Nat) (e : α → Except Fault Bytes) (xs : List α)
    (h : ∀ x ∈ xs, SizedAs (g x) (e x)) : SizedAs (sumAll g xs) (catAll e xs) := by
  induction xs with
  | nil => exact ⟨[], rfl, rfl⟩
  | cons x xs ih =>
    obtain ⟨a, h1, h2⟩ := h x (by simp)
    obtain ⟨r, h3, h4⟩ := ih fun y hy => h y (by simp [hy])
    exact ⟨a ++ r, by simp [catAll, h1, h3], by simp [sumAll, h2, h4]⟩

theorem sized_wrap (w : U64) (n : Except Fault Nat) (e : Except Fault Bytes) (h : SizedAs n e) :
    SizedAs (wrapSize w n) (wrapMap w e) := by
  obtain ⟨bs, rfl, rfl⟩ := h
  refine ⟨_, rfl, ?_⟩
  cases bs <;> simp [wrapSize, sizeOfVarint_eq]

theorem sized_codec {L : Layout} {env : Env} (sz : TypeId → Val → Except Fault Nat)
    (rec : TypeId → Val → Except Fault Bytes) (hsz : sz = sizeM env) (D : Nat)
    (hrec : ∀ t v, v.depth < D → FitsMsg L t v → EncOKMsg env t v → SizedAs (sz t v) (rec t v)) :
    ∀ (c : Codec), c.WF → c.TagsOK → ∀ v f, f.OK → v.depth ≤ D → Fits L c.shape v → EncOK env c v →
      SizedAs (codecSize sz c v f) (encP sz rec c v f) := by
  intro c
  induction c with
  | normal s =>
    intro _ _ v f hf _ hv _
    simp only [Codec.shape] at hv
    refine ⟨_, encodeNormal_eq f hv, ?_⟩
    simp only [codecSize, sizeNormal_eq f hv]
    split
    · rfl
    · simp [tag_length hf]; omega
  | required s =>
    intro _ _ v f hf _ hv _
    simp only [Codec.shape] at hv
    refine ⟨_, encodeRequired_eq f hv, ?_⟩
    simp only [codecSize, sizeRequired_eq f hv]
    simp [tag_length hf]; omega
  | option s =>
    intro _ _ v f hf _ hv _
    simp only [Codec.shape] at hv
    cases hv with
    | none => exact ⟨_, rfl, rfl⟩
    | some _ w hw =>
      refine ⟨_, encodeRequired_eq f hw, ?_⟩
      simp only [codecSize, sizeOption, if_true, sizeRequired_eq f hw]
      simp [tag_length hf]; omega
  | bytes =>
    intro _ _ v f hf _ hv _
    simp only [Codec.shape] at hv
    cases hv with
    | bytes x =>
      cases x with
      | none => exact ⟨_, rfl, rfl⟩
      | some x =>
        refine ⟨_, rfl, ?_⟩
        simp only [codecSize, sizeOfBytes, readBytes, bind, Except.bind, pure, Except.pure, appendVarint_eq,
          sizeOfVarlen, sizeOfVarint_eq]
        simp [len64, tag_length hf]; omega
  | ptr zero c ih =>
    intro hwf ht v f hf hd hv he
    simp only [Codec.shape] at hv
    cases hv with
    | ptrNil => exact ⟨_, rfl, rfl⟩
    | ptr _ w hw =>
      cases he with
      | ptr _ _ _ he =>
        simp only [Val.depth] at hd
        exact ih hwf.2 ht w f hf (by omega) hw he
  | msg t =>
    intro _ _ v f hf hd hv he
    simp only [Codec.shape] at hv
    cases hv with
    | msgNil => exact ⟨_, rfl, rfl⟩
    | msg _ vs h1 h2 =>
      simp only [Val.depth] at hd
      obtain ⟨bs, hb, hs⟩ := hrec t (.struct vs) (by simp only [Val.depth]; omega) (.msg _ _ h1 h2) he
      refine ⟨leb128 f.wiretag.toNat ++ (leb128 (BitVec.ofNat 64 bs.length).toNat ++ bs), by simp only [encP, hs, hb], ?_⟩
      simp only [codecSize, hs, bind, Except.bind, pure, Except.pure, sizeOfVarint_eq]
      simp [tag_length hf]; omega
  | slice zero c ih =>
    intro hwf ht v f hf hd hv he
    simp only [Codec.shape] at hv
    cases hv with
    | slice _ isNil es spare _ hes _ =>
      cases he with
      | slice _ _ _ _ _ he =>
        simp only [codecSize, encP, sumSizes_zero]
        refine sized_all _ _ _ fun x hx => ?_
        have := depth_mem_L hx
        simp only [Val.depth] at hd
        exact ih hwf.2 ht x f hf (by omega) (hes x hx) (he x hx)
  | map i kc vc kd vd ihk ihv _ _ =>
    intro hwf ht v f hf hd hv he
    obtain ⟨_, _, _, _, _, hkw, hvw, _, _⟩ := hwf
    obtain ⟨hit, hiv, hkt, hvt, _, _⟩ := ht
    simp only [Codec.shape] at hv
    cases hv with
    | map _ _ isNil m _ _ hks hvs =>
      cases he with
      | map _ _ _ _ _ _ _ hsame hke hve =>
        rw [codecSize_map]
        simp only [encP]
        have key : ∀ e ∈ m, ∃ kb vb, codecSize sz kc e.1.toVal i.key = .ok kb.length ∧
            codecSize sz vc e.2 i.val = .ok vb.length ∧ codecSize sz kc e.2 i.val = .ok vb.length ∧
            encP sz rec kc e.1.toVal i.key = .ok kb ∧ encP sz rec vc e.2 i.val = .ok vb := by
          intro e hem
          have := depth_mem_M hem
          simp only [Val.depth] at hd
          obtain ⟨kb, h1, h2⟩ := ihk hkw hkt e.1.toVal i.key hit (by rw [key_depth]; omega) (hks e hem) (hke e hem)
          obtain ⟨vb, h3, h4⟩ := ihv hvw hvt e.2 i.val hiv (by omega) (hvs e hem) (hve e hem)
          refine ⟨kb, vb, h2, h4, ?_, h1, h3⟩
          rw [hsz, hsame e hem, ← hsz]; exact h4
        refine sized_wrap _ _ _ (sized_all _ _ _ ?_)
        intro e hem
        obtain ⟨kb, vb, h1, h2, h3, h4, h5⟩ := key e hem
        refine ⟨leb128 i.wiretag.toNat ++ (leb128 (BitVec.ofNat 64 (kb.length + vb.length)).toNat ++ (kb ++ vb)),
          by simp only [h1, h3, h4, h5, entryBytes], ?_⟩
        simp only [h1, h2, entrySize, sizeOfVarint_eq]
        simp; omega

theorem sized_msg {L : Layout} {env : Env} (hwf : WFEnv L env) (ht : TagsOK env) :
    ∀ v t, FitsMsg L t v → EncOKMsg env t v → SizedAs (sizeM env t v) (encM env t v) := by
  intro v
  induction hd : v.depth using Nat.strongRecOn generalizing v with
  | ind d ih =>
    intro t hv he
    rw [sizeM_eq, encM_eq]
    refine sized_all _ _ _ fun f hf => ?_
    obtain ⟨vs, rfl, hfl⟩ := fitsMsg_iff.mp hv
    obtain ⟨w, hsl, hget, hfit⟩ := slotOf_fits hfl (hwf.slot t f hf)
    have := slotOf_depth hsl
    simp only [hsl]
    cases he with
    | msg _ _ he =>
      exact sized_codec (L := L) (env := env) _ _ rfl w.depth
        (fun t' v' hlt hv' he' => ih v'.depth (by omega) v' rfl t' hv' he') f.codec (hwf.codec t f hf) (ht t f hf).2 w f.tag
        (ht t f hf).1 (by omega) hfit (he f hf w hget)

/-- Size and encode of one field's codec. -/
theorem sized_field {L : Layout} {env : Env} (hwf : WFEnv L env) (ht : TagsOK env) (c : Codec) (hc : c.WF)
    (hct : c.TagsOK) (v : Val) (f : FTag) (hf : f.OK) (hv : Fits L c.shape v) (he : EncOK env c v) :
    SizedAs (codecSize (sizeM env) c v f) (encP (sizeM env) (encM env) c v f) :=
  sized_codec (L := L) (env := env) _ _ rfl v.depth (fun t v _ hv he => sized_msg hwf ht v t hv he) c hc hct v f hf
    (by omega) hv he

end Pb
