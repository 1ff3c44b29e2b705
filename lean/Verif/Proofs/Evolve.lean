import Verif.Proofs.Trip
import Verif.Proofs.Back
import Verif.Spec.Evolve
/-
What the receiver makes of the records of another version.
-/
namespace Pb
open Spec

/-! ### scalars -/

theorem ofNat_emod {w : Nat} (hw : w ≤ 64) (i : Int) : BitVec.ofNat w (i % 2 ^ 64).toNat = BitVec.ofInt w i := by
  apply BitVec.eq_of_toNat_eq
  rw [BitVec.toNat_ofNat, BitVec.toNat_ofInt]
  have h1 : 0 ≤ i % 2 ^ 64 := Int.emod_nonneg _ (by decide)
  have h2 : (2 : Int) ^ w ∣ 2 ^ 64 := by
    refine ⟨2 ^ (64 - w), ?_⟩
    rw [← Int.pow_add]; congr 1; omega
  have h3 : (i % 2 ^ 64) % 2 ^ w = i % 2 ^ w := Int.emod_emod_of_dvd _ h2
  apply Int.ofNat_inj.mp
  rw [Int.natCast_emod, Int.toNat_of_nonneg h1]
  have h4 : 0 ≤ i % ((2 ^ w : Nat) : Int) := Int.emod_nonneg _ (by have := Nat.two_pow_pos w; omega)
  rw [Int.toNat_of_nonneg h4]
  push_cast
  exact h3

theorem ofNat_toNat_int {w : Nat} (n : Nat) : BitVec.ofNat w n = BitVec.ofInt w (n : Int) := by
  simp

/-- The number on the wire, taken by an integer type. -/
theorem reads_int {s' : Scalar} (hs' : IntType s') {d : Bytes} {n : Nat} (hd : Varint64 d n) {i : Int}
    (hn : n = (i % 2 ^ 64).toNat) : ReadsAs s' d (ofInt s' i) := by
  subst hn
  rcases hs' with rfl | rfl | rfl | rfl
  · have := ReadsAs.int32 _ _ hd; rwa [ofNat_emod (by decide)] at this
  · have := ReadsAs.int64 _ _ hd; rwa [ofNat_emod (by decide)] at this
  · have := ReadsAs.uint32 _ _ hd; rwa [ofNat_emod (by decide)] at this
  · have := ReadsAs.uint64 _ _ hd; rwa [ofNat_emod (by decide)] at this

theorem reads_zigzag {s' : Scalar} (hs' : ZigzagType s') {i : Int} (h1 : -(2 ^ 63) ≤ i) (h2 : i < 2 ^ 63) :
    ReadsAs s' (leb128 (zigzag i)) (ofInt s' i) := by
  have hd := varint64_leb128 (zigzag_lt h1 h2)
  rcases hs' with rfl | rfl
  · have := ReadsAs.zigzag32 _ _ hd; rwa [unzigzag_zigzag] at this
  · have := ReadsAs.zigzag64 _ _ hd; rwa [unzigzag_zigzag] at this

theorem converts_reads {L : Layout} {s s' : Scalar} (hc : Convertible s s') {x : Val} (hx : Fits L s.shape x)
    (hl : (payload s x).length < 2 ^ 64) :
    ∃ x', Converts s x s' x' ∧ ReadsAs s' (payload s x) x' ∧ (s' = .bool → (payload s x).length = 1) := by
  cases hc with
  | same => exact ⟨x, .same _ _, readsAs_spec_payload hx hl, by rintro rfl; exact payload_bool hx⟩
  | int _ h1 h2 =>
    refine ⟨_, .int _ _ _ h1 h2, ?_, by rintro rfl; simp [IntType] at h2⟩
    rcases h1 with rfl | rfl | rfl | rfl | rfl <;> simp only [Scalar.shape] at hx <;> cases hx <;> rename_i x
    · cases x
      · exact reads_int h2 (n := 0) ⟨.last 0#8 (by decide), by decide, by decide⟩ (by simp [intOf])
      · exact reads_int h2 (n := 1) ⟨.last 1#8 (by decide), by decide, by decide⟩ (by simp [intOf])
    · exact reads_int h2 (varint64_leb128 (by omega)) rfl
    · exact reads_int h2 (varint64_leb128 (by omega)) rfl
    · exact reads_int h2 (varint64_leb128 (by have := x.isLt; omega)) (by simp only [intOf]; have := x.isLt; omega)
    · exact reads_int h2 (varint64_leb128 (by have := x.isLt; omega)) (by simp only [intOf]; have := x.isLt; omega)
  | zigzag _ h1 h2 =>
    refine ⟨_, .zigzag _ _ _ h1 h2, ?_, by rintro rfl; simp [ZigzagType] at h2⟩
    rcases h1 with rfl | rfl <;> simp only [Scalar.shape] at hx <;> cases hx <;> rename_i x
    · exact reads_zigzag h2 (by have := BitVec.le_toInt x; omega)
        (by have := BitVec.toInt_lt (x := x); omega)
    · exact reads_zigzag h2 (by have := BitVec.le_toInt x; omega)
        (by have := BitVec.toInt_lt (x := x); omega)
  | bits32 _ h1 h2 =>
    refine ⟨_, .bits32 _ _ _ h1 h2, ?_, by rintro rfl; simp [Type32] at h2⟩
    rcases h1 with rfl | rfl <;> simp only [Scalar.shape] at hx <;> cases hx <;> rename_i x <;> rcases h2 with rfl | rfl
    · exact .fixed32 x
    · exact .float32 x
    · exact .fixed32 x
    · exact .float32 x
  | bits64 _ h1 h2 =>
    refine ⟨_, .bits64 _ _ _ h1 h2, ?_, by rintro rfl; simp [Type64] at h2⟩
    rcases h1 with rfl | rfl <;> simp only [Scalar.shape] at hx <;> cases hx <;> rename_i x <;> rcases h2 with rfl | rfl
    · exact .fixed64 x
    · exact .float64 x
    · exact .fixed64 x
    · exact .float64 x

theorem zeroScalar_iff {L : Layout} {s : Scalar} {v : Val} (h : Fits L s.shape v) : zeroScalar v = true ↔ v = s.shape.zero := by
  cases s <;> simp only [Scalar.shape] at h <;> cases h <;> simp [zeroScalar, Scalar.shape, Shape.zero]

/-! ### items and payloads -/

/-- `ItemData env it d`: the payload `d` carries the item `it`. -/
inductive ItemData (env : Env) : Item → Bytes → Prop
  | scalar (s x) : ItemData env (.scalar s x) (payload s x)
  | bytes (b) : ItemData env (.bytes b) (delimited b)
  | msg (t vs body) : EncodesMsg env (env t).fields vs body → ItemData env (.msg t vs) (delimited body)
  | entry (i kc vc k v kds vds) : Encodes env kc (Key.toVal k) kds → Encodes env vc v vds →
      ItemData env (.entry i kc vc k v) (delimited (recordsOf i.key.wiretag kds ++ recordsOf i.val.wiretag vds))
  | noEntry : ItemData env .noEntry [0#8]

/-- The payloads carry the items. -/
inductive ItemsData (env : Env) : List Item → List Bytes → Prop
  | nil : ItemsData env [] []
  | cons (it d its ds) : ItemData env it d → ItemsData env its ds → ItemsData env (it :: its) (d :: ds)

theorem ItemsData.append {env : Env} {as bs : List Item} {ds es : List Bytes} (h : ItemsData env as ds)
    (h' : ItemsData env bs es) : ItemsData env (as ++ bs) (ds ++ es) := by
  induction h with
  | nil => exact h'
  | cons it d its ds h1 _ ih => exact .cons _ _ _ _ h1 ih

mutual
theorem itemsData {L : Layout} {env : Env} {c : Codec} {v : Val} {ds : List Bytes} : Encodes env c v ds →
    Fits L c.shape v → ItemsData env (items c v) ds
  | .zero s => fun hv => by
    have := (zeroScalar_iff (s := s) hv).mpr rfl
    simp only [items, this, if_true]; exact .nil
  | .nonzero s v hz => fun hv => by
    have : ¬ zeroScalar v = true := fun h => hz ((zeroScalar_iff (s := s) hv).mp h)
    simp only [items, this]; exact .cons _ _ _ _ (.scalar s v) .nil
  | .required s v => fun hv => .cons _ _ _ _ (.scalar s v) .nil
  | .none s v => fun hv => .nil
  | .some s v => fun hv => .cons _ _ _ _ (.scalar s v) .nil
  | .bytesNil => fun _ => .nil
  | .bytes s => fun _ => .cons _ _ _ _ (.bytes s) .nil
  | .ptrNil z c => fun _ => .nil
  | .ptr z c v ds h => fun hv => by
    simp only [Codec.shape] at hv
    have hv : Fits L c.shape v := by cases hv; assumption
    have := itemsData h hv
    simpa only [items] using this
  | .msgNil t => fun _ => .nil
  | .msg t vs body h => fun _ => .cons _ _ _ _ (.msg t vs body h) .nil
  | .slice z c n es sp ds h => fun hv => by
    simp only [Codec.shape] at hv
    exact itemsData_list h (by cases hv; assumption)
  | .mapEmpty i kc vc kd vd n => fun _ => .cons _ _ _ _ .noEntry .nil
  | .map i kc vc kd vd n m ds hne h => fun hv => by
    have := itemsData_map h
    cases m with
    | nil => exact absurd rfl hne
    | cons e m => exact this

theorem itemsData_list {L : Layout} {env : Env} {c : Codec} {es : List Val} {ds : List Bytes} : EncodesL env c es ds →
    (∀ e ∈ es, Fits L c.shape e) → ItemsData env (es.flatMap (items c)) ds
  | .nil c => fun _ => .nil
  | .cons c e es ds ds' h1 h2 => fun hv => by
    rw [List.flatMap_cons]
    exact (itemsData h1 (hv e (by simp))).append (itemsData_list h2 fun e he => hv e (by simp [he]))

theorem itemsData_map {env : Env} {i : MapInfo} {kc vc : Codec} {m : List (Key × Val)} {ds : List Bytes} :
    EncodesM env i kc vc m ds → ItemsData env (m.map fun e => .entry i kc vc e.1 e.2) ds
  | .nil i kc vc => .nil
  | .cons i kc vc k v m kds vds ds h1 h2 h3 => .cons _ _ _ _ (.entry i kc vc k v kds vds h1 h2) (itemsData_map h3)
end

/-- What is known of an item of a well-typed message. -/
inductive ItemOK (L : Layout) : Item → Content → Prop
  | scalar (s x) : Fits L s.shape x → ItemOK L (.scalar s x) s.content
  | bytes (b) : ItemOK L (.bytes b) .bytes
  | msg (t vs) : FitsL L (L t) vs → ItemOK L (.msg t vs) (.msg t)
  | entry (i kc vc kd vd k v) : (Codec.map i kc vc kd vd).WF → kc.IsElem → vc.IsElem → kc.Writes (keyType i.key.wiretag) →
      vc.Writes (keyType i.val.wiretag) → keyNumber i.key.wiretag ≠ keyNumber i.val.wiretag →
      Fits L kc.shape (Key.toVal k) → Fits L vc.shape v → ItemOK L (.entry i kc vc k v) (.map i kc vc kd vd)
  | noEntry (i kc vc kd vd) : ItemOK L .noEntry (.map i kc vc kd vd)

theorem itemOK_elem {L : Layout} : ∀ (c : Codec) (v : Val), c.IsElem → Fits L c.shape v →
    ∀ it ∈ items c v, ItemOK L it c.content
  | .normal s, v, _, hv, it, h => by
    simp only [items] at h
    split at h
    · simp at h
    · simp at h; subst h; exact .scalar s v hv
  | .required s, v, _, hv, it, h => by simp [items] at h; subst h; exact .scalar s v hv
  | .option s, v, _, hv, it, h => by
    simp only [Codec.shape] at hv
    cases hv with
    | none => simp [items] at h
    | some _ v hv => simp [items] at h; subst h; exact .scalar s v hv
  | .bytes, v, _, hv, it, h => by
    simp only [Codec.shape] at hv
    cases hv with
    | bytes x =>
      cases x with
      | none => simp [items] at h
      | some b => simp [items] at h; subst h; exact .bytes b
  | .ptr z c, v, hc, hv, it, h => by
    simp only [Codec.shape] at hv
    cases hv with
    | ptrNil => simp [items] at h
    | ptr _ v hv => exact itemOK_elem c v hc hv it h
  | .msg t, v, _, hv, it, h => by
    simp only [Codec.shape] at hv
    cases hv with
    | msgNil => simp [items] at h
    | msg _ vs h1 h2 => simp [items] at h; subst h; exact .msg t vs ⟨h1, h2⟩
  | .slice _ _, _, hc, _, _, _ => hc.elim
  | .map .., _, hc, _, _, _ => hc.elim

theorem itemOK_field {L : Layout} {c : Codec} {v : Val} {tag : U64} {w : Nat} (hwf : c.WF) (hs : c.Supported tag)
    (hw : c.Writes w) (hv : Fits L c.shape v) : ∀ it ∈ items c v, ItemOK L it c.content := by
  cases c with
  | slice z c =>
    simp only [Codec.shape] at hv
    cases hv with
    | slice _ n es sp _ h1 _ =>
      intro it h
      simp only [items, List.mem_flatMap] at h
      obtain ⟨e, he, h⟩ := h
      exact itemOK_elem c e hs (h1 e he) it h
  | map i kc vc kd vd =>
    simp only [Codec.shape] at hv
    cases hv with
    | map _ _ n m _ _ h1 h2 =>
      intro it h
      obtain ⟨_, _, _, h3, h4, h5, _, _⟩ := hs
      cases m with
      | nil => simp [items] at h; subst h; exact .noEntry ..
      | cons e m =>
        simp only [items, List.mem_map] at h
        obtain ⟨e', he', rfl⟩ := h
        exact .entry _ _ _ _ _ _ _ hwf h4 h5 hw.2.1 hw.2.2 h3 (h1 e' he') (h2 e' he')
  | _ => exact itemOK_elem _ v hs hv

/-! ### one item -/

theorem len_le_recordsOf (w : U64) (ds : List Bytes) (d : Bytes) (hd : d ∈ ds) : d.length ≤ (recordsOf w ds).length := by
  induction ds with
  | nil => simp at hd
  | cons x xs ih =>
    rw [recordsOf_cons]
    rcases List.mem_cons.mp hd with rfl | hd
    · simp; omega
    · have := ih hd; simp; omega

theorem merge_fits {L : Layout} {env : Env} (hwf : WFEnv L env) {c : Codec} (hc : c.WF) {old new : Val} {d : Bytes}
    (h : Merge env c old d new) (hf : Fits L c.shape old) : Fits L c.shape new :=
  dec_fits hwf hc hf (dec_of_merge hwf h hc hf)

theorem mergeEntry_keys {env : Env} {i : MapInfo} {kd vd : Codec} (hne : keyNumber i.eKey ≠ keyNumber i.eVal)
    {ds : List Bytes} {k k' v v' : Val} {rs : List (Nat × Nat × Bytes)} (h : MergeAll env kd k ds k')
    (h' : MergeEntry env i kd vd k' v rs k' v') :
    MergeEntry env i kd vd k v (ds.map (fun d => (keyNumber i.eKey, keyType i.eKey, d)) ++ rs) k' v' := by
  induction ds generalizing k with
  | nil => simp only [MergeAll] at h; subst h; exact h'
  | cons d ds ih =>
    obtain ⟨mid, h1, h2⟩ := h
    exact .key _ _ _ _ _ _ _ _ _ _ hne h1 (ih h2)

theorem mergeEntry_vals {env : Env} {i : MapInfo} {kd vd : Codec} {ds : List Bytes} {k v v' : Val}
    (h : MergeAll env vd v ds v') :
    MergeEntry env i kd vd k v (ds.map fun d => (keyNumber i.eVal, keyType i.eVal, d)) k v' := by
  induction ds generalizing v with
  | nil => simp only [MergeAll] at h; subst h; exact .nil _ _ _ _ _
  | cons d ds ih =>
    obtain ⟨mid, h1, h2⟩ := h
    exact .val _ _ _ _ _ _ _ _ _ _ h1 (ih h2)

/-- Messages with a body shorter than `N` are understood. -/
def UnderstoodUpTo (L L' : Layout) (env env' : Env) (R : TypeId → TypeId → Prop) (N : Nat) : Prop :=
  ∀ t t' vs body, R t t' → EncodesMsg env (env t).fields vs body → body.length < N → FitsL L (L t) vs →
    ∀ os, FitsL L' (L' t') os → ∃ rs ws, Records body rs ∧ MergeRecs env' t' os rs ws ∧ TakesMsg env env' t vs t' os ws

/-- A codec takes the item. -/
def Understands (env env' : Env) (L' : Layout) (c : Codec) (it : Item) (d : Bytes) : Prop :=
  ∀ old, Fits L' c.shape old → ∃ new, Merge env' c old d new ∧ Takes env env' it c old new

theorem takesAll_of {env env' : Env} {L' : Layout} (hwf : WFEnv L' env') {c : Codec} (hc : c.WF) {its : List Item} {ds : List Bytes}
    (h : ItemsData env its ds) (hu : ∀ it ∈ its, ∀ d ∈ ds, ItemData env it d → Understands env env' L' c it d) :
    ∀ old, Fits L' c.shape old → ∃ new, MergeAll env' c old ds new ∧ TakesAll env env' its c old new ∧ Fits L' c.shape new := by
  induction h with
  | nil => exact fun old ho => ⟨old, rfl, .nil _ _, ho⟩
  | cons it d its ds h1 _ ih =>
    intro old ho
    obtain ⟨mid, hm, ht⟩ := hu it (by simp) d (by simp) h1 old ho
    obtain ⟨new, h2, h3, h4⟩ := ih (fun it h d hd => hu it (by simp [h]) d (by simp [hd])) mid (merge_fits hwf hc hm ho)
    exact ⟨new, ⟨mid, hm, h2⟩, .cons _ _ _ _ _ _ ht h3, h4⟩

theorem isScalar_of {env : Env} {L : Layout} {R : TypeId → TypeId → Prop} {it : Item} {d : Bytes} {a : Content} {s : Scalar}
    (hd : ItemData env it d) (hi : ItemOK L it a) (hc : Compatible R a s.content) (hl : d.length < 2 ^ 64) :
    ∃ x, IsScalar it s x ∧ ReadsAs s d x ∧ (s = .bool → d.length = 1) := by
  cases hi with
  | scalar s0 x hx =>
    cases hd
    have : Convertible s0 s := by
      unfold Scalar.content at hc
      split at hc <;> split at hc
      · subst_vars; exact .same _
      · cases hc
      · cases hc
      · cases hc; assumption
    obtain ⟨x', h1, h2, h3⟩ := converts_reads this hx hl
    exact ⟨x', .scalar _ _ _ _ h1, h2, h3⟩
  | bytes b =>
    cases hd
    unfold Scalar.content at hc
    split at hc
    · subst_vars
      exact ⟨_, .text b, .string _ _ (varint64_leb128 (by simp [delimited] at hl; omega)), by simp⟩
    · cases hc
  | msg t vs h => unfold Scalar.content at hc; split at hc <;> cases hc
  | entry => unfold Scalar.content at hc; split at hc <;> cases hc
  | noEntry => unfold Scalar.content at hc; split at hc <;> cases hc

theorem isBytes_of {env : Env} {L : Layout} {R : TypeId → TypeId → Prop} {it : Item} {d : Bytes} {a : Content}
    (hd : ItemData env it d) (hi : ItemOK L it a) (hc : Compatible R a .bytes) (hl : d.length < 2 ^ 64) :
    ∃ b, IsBytes it b ∧ BytesAs d b := by
  cases hi with
  | scalar s0 x hx =>
    cases hd
    unfold Scalar.content at hc
    split at hc
    · subst_vars
      simp only [Scalar.shape] at hx
      cases hx with
      | str b => exact ⟨b, .text b, _, varint64_leb128 (by simp [payload] at hl; omega), rfl⟩
    · cases hc
  | bytes b =>
    cases hd
    exact ⟨b, .bytes b, bytesAs_delimited (by simp [delimited] at hl; omega)⟩
  | msg t vs h => cases hc
  | entry => cases hc
  | noEntry => cases hc

theorem understands {L L' : Layout} {env env' : Env} {R : TypeId → TypeId → Prop} (hg : Good L env) (hwf : WFEnv L' env') {N : Nat}
    (hN : UnderstoodUpTo L L' env env' R N) (hN64 : N ≤ 2 ^ 64 - 1) :
    ∀ (c' : Codec), c'.WF → ∀ {it : Item} {d : Bytes} {a : Content}, ItemData env it d → ItemOK L it a → Compatible R a c'.content →
      d.length ≤ N → Understands env env' L' c' it d
  | .normal s, _, it, d, a, hd, hi, hc, hl => fun old _ => by
    obtain ⟨x, h1, h2, h3⟩ := isScalar_of hd hi hc (by omega)
    exact ⟨x, .normal s _ _ _ h2 h3, .normal _ _ _ _ h1⟩
  | .required s, _, it, d, a, hd, hi, hc, hl => fun old _ => by
    obtain ⟨x, h1, h2, h3⟩ := isScalar_of hd hi hc (by omega)
    exact ⟨x, .required s _ _ _ h2 h3, .required _ _ _ _ h1⟩
  | .option s, _, it, d, a, hd, hi, hc, hl => fun old ho => by
    obtain ⟨x, h1, h2, h3⟩ := isScalar_of hd hi hc (by omega)
    simp only [Codec.shape] at ho
    cases ho with
    | none => exact ⟨_, .option s _ _ _ _ h2 h3, .option _ _ _ _ _ h1⟩
    | some => exact ⟨_, .option s _ _ _ _ h2 h3, .option _ _ _ _ _ h1⟩
  | .bytes, _, it, d, a, hd, hi, hc, hl => fun old ho => by
    obtain ⟨b, h1, h2⟩ := isBytes_of hd hi hc (by omega)
    simp only [Codec.shape] at ho
    cases ho
    exact ⟨_, .bytes _ _ _ h2, .bytes _ _ _ h1⟩
  | .ptr z c, hw, it, d, a, hd, hi, hc, hl => fun old ho => by
    have ih := understands hg hwf hN hN64 c hw.2 hd hi hc hl
    simp only [Codec.shape] at ho
    cases ho with
    | ptrNil =>
      obtain ⟨new, h1, h2⟩ := ih z (by rw [hw.1]; exact fits_zero L' _)
      exact ⟨_, .ptrNew _ _ _ _ h1, .ptrNew _ _ _ _ h2⟩
    | ptr _ v hv =>
      obtain ⟨new, h1, h2⟩ := ih v hv
      exact ⟨_, .ptrOld _ _ _ _ _ h1, .ptrOld _ _ _ _ _ h2⟩
  | .slice z c, hw, it, d, a, hd, hi, hc, hl => fun old ho => by
    have ih := understands hg hwf hN hN64 c hw.2 hd hi hc hl
    simp only [Codec.shape] at ho
    cases ho with
    | slice _ n es sp _ _ hsp =>
      cases sp with
      | nil =>
        obtain ⟨new, h1, h2⟩ := ih z (by rw [hw.1]; exact fits_zero L' _)
        exact ⟨_, .sliceGrow _ _ _ _ _ _ h1, .sliceGrow _ _ _ _ _ _ h2⟩
      | cons s sp =>
        obtain ⟨new, h1, h2⟩ := ih s (hsp s (by simp))
        exact ⟨_, .sliceSlot _ _ _ _ _ _ _ _ h1, .sliceSlot _ _ _ _ _ _ _ _ h2⟩
  | .msg t', _, it, d, a, hd, hi, hc, hl => fun old ho => by
    cases hi with
    | msg t vs hvs =>
      cases hc with
      | msg _ _ hR =>
      cases hd with
      | msg _ _ body he =>
      have hlb : body.length < N := by
        have : 0 < (leb128 body.length).length := (varint_leb128 body.length).length_pos
        simp [delimited] at hl; omega
      simp only [Codec.shape] at ho
      cases ho with
      | msgNil =>
        have hz := hwf.zero_fits t'
        simp only [zerosOf, hwf.zero t'] at hz
        obtain ⟨rs, ws, h1, h2, h3⟩ := hN t t' vs body hR he hlb hvs _ (fitsL_of_msg hz)
        exact ⟨_, .msgNew t' _ body rs _ ws (hwf.zero t') (bytesAs_delimited (by omega)) h1 h2, .msgNew _ _ _ _ _ (hwf.zero t') h3⟩
      | msg _ os h1 h2 =>
        obtain ⟨rs, ws, h3, h4, h5⟩ := hN t t' vs body hR he hlb hvs os ⟨h1, h2⟩
        exact ⟨_, .msgOld t' _ body rs _ ws (bytesAs_delimited (by omega)) h3 h4, .msgOld _ _ _ _ _ h5⟩
    | scalar s x h => simp only [Codec.content, Scalar.content] at hc; split at hc <;> cases hc
    | bytes => cases hc
    | entry => cases hc
    | noEntry => cases hc
  | .map i' kc' vc' kd' vd', hw, it, d, a, hd, hi, hc, hl => fun old ho => by
    have hsh := hw
    obtain ⟨hk, hkd, hvd, hkz, hvz, _, _, hkdw, hvdw⟩ := hw
    simp only [Codec.shape] at ho
    cases ho with
    | map _ _ n m =>
    cases hi with
    | scalar s x h => simp only [Codec.content, Scalar.content] at hc; split at hc <;> cases hc
    | bytes => cases hc
    | msg => cases hc
    | noEntry i kc vc kd vd =>
      cases hd
      obtain ⟨k, _, hk1⟩ := key_of_fits (L := L') hk (fits_zero L' _)
      rw [← hkz] at hk1
      refine ⟨_, .map i' kc' vc' kd' vd' n m [0#8] [] [] k i'.vzero _
        ⟨[0#8], ⟨.last 0#8 (by decide), by decide, by decide⟩, rfl⟩ .nil ?_ (mapAssign_assign m k i'.vzero),
        .noEntry _ _ _ _ _ _ _ _ _ hk1 (mapAssign_assign m k i'.vzero)⟩
      rw [hk1]; exact .nil _ _ _ _ _
    | entry i kc vc kd vd k v hwf0 hkel hvel hkw hvw hne hfk hfv =>
      cases hc with
      | map _ _ _ _ _ _ _ _ _ _ hn1 ht1 hn2 ht2 hck hcv =>
      cases hd with
      | entry _ _ _ _ _ kds vds hek hev =>
      obtain ⟨_, _, _, _, _, hkcw, hvcw, _, _⟩ := hwf0
      have hbl : (recordsOf i.key.wiretag kds).length + (recordsOf i.val.wiretag vds).length < N := by
        have : 0 < (leb128 ((recordsOf i.key.wiretag kds).length + (recordsOf i.val.wiretag vds).length)).length :=
          (varint_leb128 _).length_pos
        simp [delimited] at hl; omega
      have hkl : ∀ d ∈ kds, d.length ≤ N := fun d hd => by have := len_le_recordsOf i.key.wiretag kds d hd; omega
      have hvl : ∀ d ∈ vds, d.length ≤ N := fun d hd => by have := len_le_recordsOf i.val.wiretag vds d hd; omega
      obtain ⟨k', hk1, hk2, hk3⟩ := takesAll_of hwf hkdw (itemsData hek hfk)
        (fun it hit d hd hid => understands hg hwf hN hN64 kd' hkdw hid (itemOK_elem kc _ hkel hfk it hit) hck (hkl d hd))
        i'.kzero (by rw [hkz, hkd]; exact fits_zero L' _)
      obtain ⟨v', hv1, hv2, hv3⟩ := takesAll_of hwf hvdw (itemsData hev hfv)
        (fun it hit d hd hid => understands hg hwf hN hN64 vd' hvdw hid (itemOK_elem vc _ hvel hfv it hit) hcv (hvl d hd))
        i'.vzero (by rw [hvz, hvd]; exact fits_zero L' _)
      obtain ⟨key, _, hkey⟩ := key_of_fits (by rw [hkd]; exact hk) hk3
      subst hkey
      have hpk := (((back_codec hg hek (keyType i.key.wiretag) 0#64 hkcw hkw hfk (fun d hd => by have := hkl d hd; omega)).1 hkel).field).1
      have hpv := (((back_codec hg hev (keyType i.val.wiretag) 0#64 hvcw hvw hfv (fun d hd => by have := hvl d hd; omega)).1 hvel).field).1
      refine ⟨_, .map i' kc' vc' kd' vd' n m _ _ _ key v' _ (bytesAs_delimited (by simpa using (by omega)))
        (records_append (records_of_payloads hpk) (records_of_payloads hpv)) ?_ (mapAssign_assign m key v'),
        .entry _ _ _ _ _ _ _ _ _ _ _ _ key v' _ hk2 hv2 (mapAssign_assign m key v')⟩
      rw [← hn1, ← ht1, ← hn2, ← ht2]
      exact mergeEntry_keys (by rw [hn1, hn2]; exact hne) hk1 (mergeEntry_vals hv1)

/-! ### messages -/

theorem compatible_wire {R : TypeId → TypeId → Prop} {c c' : Codec} {w w' : Nat} (h : Compatible R c.content c'.content)
    (hw : c.Writes w) (hw' : c'.Writes w') : w = w' := by
  have key : ∀ (c : Codec) (w : Nat), c.Writes w → (∃ s, c.content = .scalar s ∧ w = s.wire) ∨
      (w = 2 ∧ ∀ s, c.content ≠ .scalar s) := by
    have sc : ∀ (s : Scalar) (w : Nat), w = s.wire → (∃ s', s.content = .scalar s' ∧ w = s'.wire) ∨
        (w = 2 ∧ ∀ s', s.content ≠ .scalar s') := by
      intro s w h
      unfold Scalar.content
      split
      · subst_vars; exact .inr ⟨rfl, by simp⟩
      · exact .inl ⟨s, rfl, h⟩
    intro c
    induction c with
    | normal s => exact sc s
    | required s => exact sc s
    | option s => exact sc s
    | bytes => exact fun w h => .inr ⟨h, by simp [Codec.content]⟩
    | msg t => exact fun w h => .inr ⟨h, by simp [Codec.content]⟩
    | ptr z c ih => exact ih
    | slice z c ih => exact ih
    | map i kc vc kd vd => exact fun w h => .inr ⟨h.1, by simp [Codec.content]⟩
  rcases key c w hw with ⟨s, h1, h2⟩ | ⟨h1, h2⟩
  · rcases key c' w' hw' with ⟨s', h3, h4⟩ | ⟨h3, h4⟩
    · rw [h1, h3] at h
      cases h with
      | scalar _ _ hc =>
        rw [h2, h4]
        cases hc with
        | same => rfl
        | int _ h5 h6 => rcases h5 with rfl | rfl | rfl | rfl | rfl <;> rcases h6 with rfl | rfl | rfl | rfl <;> rfl
        | zigzag _ h5 h6 => rcases h5 with rfl | rfl <;> rcases h6 with rfl | rfl <;> rfl
        | bits32 _ h5 h6 => rcases h5 with rfl | rfl <;> rcases h6 with rfl | rfl <;> rfl
        | bits64 _ h5 h6 => rcases h5 with rfl | rfl <;> rcases h6 with rfl | rfl <;> rfl
    · rw [h1] at h
      generalize c'.content = b at h h4
      cases h with | scalar _ s' => exact absurd rfl (h4 s')
  · rcases key c' w' hw' with ⟨s', h3, h4⟩ | ⟨h3, h4⟩
    · rw [h3] at h
      generalize c.content = b at h h2
      cases h with | scalar s => exact absurd rfl (h2 s)
    · rw [h1, h3]

theorem mergeRecs_unknown {env : Env} {t : TypeId} {n w : Nat} (hu : Undeclared (env t).fields n) (ds : List Bytes) (vs : List Val) :
    MergeRecs env t vs (ds.map fun d => (n, w, d)) vs := by
  induction ds with
  | nil => exact .nil _ _
  | cons d ds ih => exact .unknown _ _ _ _ _ _ _ hu ih

theorem takes_fields {L L' : Layout} {env env' : Env} {R : TypeId → TypeId → Prop} (hg : Good L env) (hg' : Good L' env')
    (hR : Versions env env' R) {N : Nat} (hN : UnderstoodUpTo L L' env env' R N) (hN64 : N ≤ 2 ^ 64 - 1) {t t' : TypeId} (ht : R t t')
    {fs : List Field} {vs : List Val} {b : Bytes} (he : EncodesMsg env fs vs b) : (∀ f ∈ fs, f ∈ (env t).fields) →
      (fs.Pairwise fun f g => f.offset ≠ g.offset ∧ keyNumber f.tag.wiretag ≠ keyNumber g.tag.wiretag) →
      FitsL L (L t) vs → b.length ≤ N → ∀ os : List Val, FitsL L' (L' t') os →
      ∃ rs ws, Records b rs ∧ MergeRecs env' t' os rs ws ∧ ws.length = os.length ∧
        (∀ f ∈ fs, ∀ f' ∈ (env' t').fields, keyNumber f.tag.wiretag = keyNumber f'.tag.wiretag →
          ∀ v o w, vs[f.offset]? = some v → os[f'.offset]? = some o → ws[f'.offset]? = some w →
            TakesAll env env' (items f.codec v) f'.codec o w) ∧
        (∀ j : Nat, (∀ f' ∈ (env' t').fields, f'.offset = j → ∀ f ∈ fs,
          keyNumber f.tag.wiretag ≠ keyNumber f'.tag.wiretag) → ws[j]? = os[j]?) := by
  induction fs generalizing b with
  | nil =>
    cases he
    exact fun _ _ _ _ os _ => ⟨[], os, .nil, .nil _ _, rfl, by simp, by simp⟩
  | cons f fs ih =>
    intro hsub hpw hf hl os hos
    cases he with
    | cons _ _ _ v ds b hv he hes =>
    have hmem := hsub f (by simp)
    rw [List.pairwise_cons] at hpw
    simp only [List.length_append] at hl
    have hfit : Fits L f.codec.shape v := hf.2 _ _ _ (hg.wf.slot t f hmem) hv
    have hdl : ∀ d ∈ ds, d.length ≤ N := fun d hd => by have := len_le_recordsOf f.tag.wiretag ds d hd; omega
    have hpay := ((back_codec hg he (keyType f.tag.wiretag) f.tag.wiretag (hg.wf.codec t f hmem) (hg.writes t f hmem) hfit
      (fun d hd => by have := hdl d hd; omega)).2 (hg.supported t f hmem)).1
    by_cases hdecl : ∃ f' ∈ (env' t').fields, keyNumber f'.tag.wiretag = keyNumber f.tag.wiretag
    · obtain ⟨f', hf', hnum⟩ := hdecl
      have hcomp := hR t t' ht f hmem f' hf' hnum.symm
      have hwire := compatible_wire hcomp (hg.writes t f hmem) (hg'.writes t' f' hf')
      have hslot := hg'.wf.slot t' f' hf'
      have hlt : f'.offset < os.length := by rw [hos.1]; exact (List.getElem?_eq_some_iff.mp hslot).1
      obtain ⟨o, ho⟩ : ∃ o, os[f'.offset]? = some o := ⟨_, List.getElem?_eq_getElem hlt⟩
      have hof := hos.2 _ _ _ hslot ho
      obtain ⟨new, h1, h2, h3⟩ := takesAll_of hg'.wf (hg'.wf.codec t' f' hf') (itemsData he hfit)
        (fun it hit d hd hid => understands hg hg'.wf hN hN64 _ (hg'.wf.codec t' f' hf') hid
          (itemOK_field (hg.wf.codec t f hmem) (hg.supported t f hmem) (hg.writes t f hmem) hfit it hit) hcomp (hdl d hd)) o hof
      obtain ⟨rs, ws, h4, h5, h6, h7, h8⟩ := ih hes (fun g h => hsub g (by simp [h])) hpw.2 hf (by omega) (os.set f'.offset new)
        (fitsL_set hos hslot h3)
      have hrec := mergeRecs_field (declared_of_mem (hg'.distinct t') hf') ho h1
      rw [hnum, ← hwire] at hrec
      -- the receiver's fields have different places
      have hoff : ∀ g' ∈ (env' t').fields, g'.offset = f'.offset → g' = f' := by
        intro g' hg'' heq
        have := List.pairwise_iff_getElem.mp (hg'.distinct t')
        obtain ⟨i, hi, rfl⟩ := List.getElem_of_mem hg''
        obtain ⟨j, hj, rfl⟩ := List.getElem_of_mem hf'
        by_cases hij : i = j
        · subst hij; rfl
        · rcases Nat.lt_or_gt_of_ne hij with h | h
          · exact absurd heq (this i j hi hj h).1
          · exact absurd heq.symm (this j i hj hi h).1
      refine ⟨_, ws, records_append (records_of_payloads hpay) h4, mergeRecs_append hrec h5, by simpa using h6, ?_, ?_⟩
      · intro g hgm g' hgm' hn v' o' w' hv' ho' hw'
        rcases List.mem_cons.mp hgm with rfl | hgm
        · have hge : g' = f' := by
            have hpd := List.pairwise_iff_getElem.mp (hg'.distinct t')
            obtain ⟨i, hi, rfl⟩ := List.getElem_of_mem hgm'
            obtain ⟨j, hj, rfl⟩ := List.getElem_of_mem hf'
            by_cases hij : i = j
            · subst hij; rfl
            · rcases Nat.lt_or_gt_of_ne hij with h | h
              · exact absurd (hn.symm.trans hnum.symm) (hpd i j hi hj h).2
              · exact absurd (hnum.trans hn) (hpd j i hj hi h).2
          subst hge
          rw [hv] at hv'; cases hv'
          rw [ho] at ho'; cases ho'
          rw [h8 g'.offset (fun k' hk' hko k hk => by
            rw [hoff k' hk' hko, ← hn]; exact (hpw.1 k hk).2.symm)] at hw'
          simp [hlt] at hw'
          subst hw'; exact h2
        · refine h7 g hgm g' hgm' hn v' o' w' hv' ?_ hw'
          rw [List.getElem?_set_ne ?_]
          · exact ho'
          · intro heq
            rw [hoff g' hgm' heq.symm] at hn
            exact (hpw.1 g hgm).2 (hnum.symm.trans hn.symm)
      · intro j hj
        rw [h8 j (fun k' hk' hko k hk => hj k' hk' hko k (by simp [hk])), List.getElem?_set_ne]
        intro heq
        exact hj f' hf' heq f (by simp) hnum.symm
    · have hun : Undeclared (env' t').fields (keyNumber f.tag.wiretag) := fun g hgm hn => hdecl ⟨g, hgm, hn⟩
      obtain ⟨rs, ws, h4, h5, h6, h7, h8⟩ := ih hes (fun g h => hsub g (by simp [h])) hpw.2 hf (by omega) os hos
      refine ⟨_, ws, records_append (records_of_payloads hpay) h4, mergeRecs_append (mergeRecs_unknown hun ds os) h5, h6, ?_, ?_⟩
      · intro g hgm g' hgm' hn
        rcases List.mem_cons.mp hgm with rfl | hgm
        · exact absurd hn.symm (hun g' hgm')
        · exact h7 g hgm g' hgm' hn
      · intro j hj
        exact h8 j fun k' hk' hko k hk => hj k' hk' hko k (by simp [hk])

theorem understoodUpTo {L L' : Layout} {env env' : Env} {R : TypeId → TypeId → Prop} (hg : Good L env) (hg' : Good L' env')
    (hR : Versions env env' R) : ∀ N, N ≤ 2 ^ 64 → UnderstoodUpTo L L' env env' R N
  | 0, _ => fun _ _ _ _ _ _ h => by omega
  | N + 1, hN => fun t t' vs body ht he hb hf os hos => by
    obtain ⟨rs, ws, h1, h2, h3, h4, h5⟩ := takes_fields hg hg' hR (understoodUpTo hg hg' hR N (by omega)) (by omega) ht he
      (fun f h => h) (hg.distinct t) hf (by omega) os hos
    exact ⟨rs, ws, h1, h2, .mk _ _ _ _ _ h3 h4 h5⟩

end Pb
