import Verif.Spec.Heap
import Verif.Proofs.Loop
/-
What decoding does to memory.
-/
namespace Pb
open Spec

theorem mem_arraysL {h : Hdr} : ∀ {vs : List HVal}, h ∈ HVal.arraysL vs ↔ ∃ v ∈ vs, h ∈ v.arrays
  | [] => by simp [HVal.arraysL]
  | v :: vs => by simp [HVal.arraysL, mem_arraysL (vs := vs)]

theorem mem_arraysM {h : Hdr} : ∀ {es : List (Key × HVal)}, h ∈ HVal.arraysM es ↔ ∃ e ∈ es, h ∈ e.2.arrays
  | [] => by simp [HVal.arraysM]
  | (k, v) :: vs => by simp [HVal.arraysM, mem_arraysM (es := vs)]

theorem arraysL_append : ∀ (a b : List HVal), HVal.arraysL (a ++ b) = HVal.arraysL a ++ HVal.arraysL b
  | [], b => rfl
  | v :: a, b => by simp [HVal.arraysL, arraysL_append a b]

mutual
theorem arrays_ofVal : ∀ v : Val, (HVal.ofVal v).arrays = []
  | .b8 _ => rfl
  | .w32 _ => rfl
  | .w64 _ => rfl
  | .str _ => rfl
  | .bytes _ => rfl
  | .opt _ v => arrays_ofVal v
  | .nilp => rfl
  | .ptr v => arrays_ofVal v
  | .struct fs => arrays_ofValL fs
  | .slice _ es sp => by simp [HVal.ofVal, HVal.arrays, arrays_ofValL es, arrays_ofValL sp]
  | .map _ es => arrays_ofValM es
  | .opaque _ => rfl
theorem arrays_ofValL : ∀ vs : List Val, HVal.arraysL (HVal.ofValL vs) = []
  | [] => rfl
  | v :: vs => by simp [HVal.ofValL, HVal.arraysL, arrays_ofVal v, arrays_ofValL vs]
theorem arrays_ofValM : ∀ es : List (Key × Val), HVal.arraysM (HVal.ofValM es) = []
  | [] => rfl
  | (k, v) :: es => by simp [HVal.ofValM, HVal.arraysM, arrays_ofVal v, arrays_ofValM es]
end

/-- Some array holds the address. -/
def HeldBy (hs : List Hdr) (x : Nat) : Prop := ∃ h ∈ hs, h.holds x

/-- From memory `m` with slices `hs` to memory `m'` with slices `hs'`: only the arrays of `hs` and new memory are
written, and `hs'` are in those arrays or in new memory. -/
structure MemGrows (m : Arena) (hs : List Hdr) (m' : Arena) (hs' : List Hdr) : Prop where
  next : m.next ≤ m'.next
  data : ∀ x, x < m.next → ¬ HeldBy hs x → m'.data x = m.data x
  own : ∀ x, HeldBy hs' x → HeldBy hs x ∨ m.next ≤ x
  ok : Alloc m' hs'

theorem MemGrows.refl {m : Arena} {hs : List Hdr} (h : Alloc m hs) : MemGrows m hs m hs :=
  ⟨Nat.le_refl _, fun _ _ _ => rfl, fun _ h => .inl h, h⟩

theorem MemGrows.trans {m hs m' hs' m'' hs''} (h : MemGrows m hs m' hs') (h' : MemGrows m' hs' m'' hs'') :
    MemGrows m hs m'' hs'' where
  next := Nat.le_trans h.next h'.next
  data x hx hn := by
    rw [h'.data x (Nat.lt_of_lt_of_le hx h.next), h.data x hx hn]
    intro ho
    rcases h.own x ho with ho | ho
    · exact hn ho
    · omega
  own x ho := by
    rcases h'.own x ho with ho | ho
    · exact h.own x ho
    · have := h.next; exact .inr (by omega)
  ok := h'.ok

/-- The slices are part of a larger structure. -/
theorem MemGrows.lift {m hs m' hs'} (h : MemGrows m hs m' hs') {HS HS' : List Hdr} (hin : ∀ a ∈ hs, a ∈ HS)
    (hout : ∀ a ∈ HS', a ∈ HS ∨ a ∈ hs') (hok : Alloc m HS) : MemGrows m HS m' HS' where
  next := h.next
  data x hx hn := h.data x hx fun ⟨a, ha, hx⟩ => hn ⟨a, hin a ha, hx⟩
  own x := by
    rintro ⟨a, ha, hx⟩
    rcases hout a ha with ha | ha
    · exact .inl ⟨a, ha, hx⟩
    · rcases h.own x ⟨a, ha, hx⟩ with ⟨c, hc, hx⟩ | hx
      · exact .inl ⟨c, hin c hc, hx⟩
      · exact .inr hx
  ok a ha := by
    rcases hout a ha with ha | ha
    · have := hok a ha; have := h.next; omega
    · exact h.ok a ha

theorem alloc_mono {m : Arena} {hs hs' : List Hdr} (h : Alloc m hs) (hin : ∀ a ∈ hs', a ∈ hs) : Alloc m hs' :=
  fun a ha => h a (hin a ha)

theorem alloc_nil (m : Arena) : Alloc m [] := fun _ h => nomatch h

/-- A decode function that respects memory. -/
def Tame (d : DecH) : Prop :=
  ∀ b v m r m', Alloc m v.arrays → d b v m = .ok (r, m') → MemGrows m v.arrays m' r.val.arrays

theorem write_data_out {m : Arena} {p : Nat} {bs : Bytes} {x : Nat} (h : ¬ (p ≤ x ∧ x < p + bs.length)) :
    (m.write p bs).data x = m.data x := by
  simp [Arena.write, h]

theorem heldBy_one {h : Hdr} {x : Nat} : HeldBy [h] x ↔ h.holds x := by simp [HeldBy]

theorem make_grows {m : Arena} {n : Nat} : MemGrows m [] (m.make n).2 [(m.make n).1] where
  next := by simp [Arena.make, Arena.alloc]
  data _ _ _ := rfl
  own x h := by
    rw [heldBy_one] at h
    simp only [Arena.make, Hdr.holds] at h
    exact .inr h.1
  ok a ha := by
    simp only [List.mem_singleton] at ha
    subst ha
    simp [Arena.make, Arena.alloc]

theorem append_grows {grow : Nat → Nat → Nat} (hg : ∀ c n, n ≤ grow c n) {m : Arena} {h : Hdr} (hok : Alloc m [h])
    {v : Bytes} : MemGrows m [h] (m.append grow h v).2 [(m.append grow h v).1] := by
  have hh := hok h (by simp)
  unfold Arena.append
  split
  · next hc =>
    refine ⟨Nat.le_refl _, fun x hx hn => write_data_out ?_, fun x ho => ?_, fun a ha => ?_⟩
    · intro hb
      exact hn (heldBy_one.mpr ⟨hb.1, by omega⟩)
    · exact .inl (heldBy_one.mpr (by simpa [Hdr.holds] using heldBy_one.mp ho))
    · simp only [List.mem_singleton] at ha
      subst ha
      simp only [Arena.write]
      omega
  · next hc =>
    have := hg h.cap v.length
    refine ⟨by simp [Arena.write, Arena.alloc], fun x hx hn => ?_, fun x ho => ?_, fun a ha => ?_⟩
    · rw [write_data_out (by omega)]; rfl
    · have := heldBy_one.mp ho
      simp only [Hdr.holds] at this
      exact .inr this.1
    · simp only [List.mem_singleton] at ha
      subst ha
      simp only [Arena.write, Arena.alloc]
      omega

theorem val_mk (v : HVal) (n : Nat) (e : Option Err) : (HRes.mk v n e).val = v := by cases e <;> rfl

theorem tame_bytes {grow : Nat → Nat → Nat} (hg : ∀ c n, n ≤ grow c n) : Tame (decodeBytesH grow) := by
  intro b v m r m' hok h
  unfold decodeBytesH at h
  simp only [bind, Except.bind, pure, Except.pure] at h
  generalize decodeVarlen (m.win b) = q at h
  rcases q with e | ⟨d, n, err⟩
  · cases h
  cases v with
  | bytes o =>
    cases o with
    | some h0 =>
      simp only [Except.ok.injEq, Prod.mk.injEq] at h
      obtain ⟨rfl, rfl⟩ := h
      rw [val_mk]
      exact append_grows hg hok
    | none =>
      simp only [Except.ok.injEq, Prod.mk.injEq] at h
      obtain ⟨rfl, rfl⟩ := h
      rw [val_mk]
      exact make_grows.trans (append_grows hg make_grows.ok)
  | _ => cases h

theorem arrays_ofDRes (r : DRes) : (HRes.ofDRes r).val.arrays = [] := by
  cases r <;> exact arrays_ofVal _

theorem val_wrap (f : HVal → HVal) (r : HRes) : (r.wrap f).val = f r.val := by cases r <;> rfl

/-- Slices may be dropped. -/
theorem MemGrows.sub {m hs m' hs' hs''} (h : MemGrows m hs m' hs') (hin : ∀ a ∈ hs'', a ∈ hs') : MemGrows m hs m' hs'' where
  next := h.next
  data := h.data
  own x := fun ⟨a, ha, hx⟩ => h.own x ⟨a, hin a ha, hx⟩
  ok := alloc_mono h.ok hin

theorem tame_scalar (s : Scalar) : Tame (decodeScalarH s) := by
  intro b v m r m' hok h
  unfold decodeScalarH at h
  split at h
  · cases h; exact .refl hok
  · simp only [bind, Except.bind, pure, Except.pure] at h
    generalize decodeScalar s (m.win b) (v.abs m) = q at h
    rcases q with e | d
    · cases h
    · cases h
      exact (MemGrows.refl hok).sub (by rw [arrays_ofDRes]; nofun)

theorem tame_option (s : Scalar) : Tame (decodeOptionH s) := by
  intro b v m r m' hok h
  unfold decodeOptionH at h
  cases v with
  | opt o v =>
    simp only [bind, Except.bind, pure, Except.pure] at h
    rcases hs : decodeScalarH s b v m with e | ⟨r0, m0⟩
    · simp [hs] at h
    · simp only [hs] at h
      cases h
      rw [val_wrap]
      exact tame_scalar s b v m _ _ hok hs
  | _ => cases h

theorem slotOfH_mem {vs : List HVal} {o : Nat} {v : HVal} (h : slotOfH vs o = .ok v) : vs[o]? = some v := by
  unfold slotOfH at h
  split at h <;> cases h
  assumption

theorem mem_arraysL_set {vs : List HVal} {o : Nat} {w : HVal} {a : Hdr} (h : a ∈ HVal.arraysL (vs.set o w)) :
    a ∈ HVal.arraysL vs ∨ a ∈ w.arrays := by
  obtain ⟨v, hv, ha⟩ := mem_arraysL.mp h
  rcases List.mem_or_eq_of_mem_set hv with hv | rfl
  · exact .inl (mem_arraysL.mpr ⟨v, hv, ha⟩)
  · exact .inr ha

theorem grows_set {m m' : Arena} {vs : List HVal} {o : Nat} {v w : HVal} (hv : vs[o]? = some v)
    (h : MemGrows m v.arrays m' w.arrays) (hok : Alloc m (HVal.arraysL vs)) :
    MemGrows m (HVal.arraysL vs) m' (HVal.arraysL (vs.set o w)) :=
  h.lift (fun _ ha => mem_arraysL.mpr ⟨v, List.mem_of_getElem? hv, ha⟩) (fun _ => mem_arraysL_set) hok

theorem tame_loop {idx : Nat → Option HField} (hi : ∀ n f, idx n = some f → Tame f.dec) (b : Win) :
    ∀ fuel o vs m r m', Alloc m (HVal.arraysL vs) → structLoopH idx b fuel o vs m = .ok (r, m') →
      MemGrows m (HVal.arraysL vs) m' r.val.arrays := by
  intro fuel
  induction fuel with
  | zero =>
    intro o vs m r m' hok h
    unfold structLoopH at h
    split at h
    · cases h
    · cases h; exact .refl hok
  | succ fuel ih =>
    intro o vs m r m' hok h
    unfold structLoopH at h
    split at h
    · simp only [bind, Except.bind, pure, Except.pure] at h
      generalize goFrom (m.win b) o = q at h
      rcases q with e | s
      · cases h
      rcases hd : decodeTag s with ⟨num, wt, n, _ | e⟩
      · simp only [hd] at h
        cases hx : idx num with
        | none =>
          simp only [hx] at h
          generalize skipUnknown (m.win b) (o + n) wt = q at h
          rcases q with e | ⟨o', _ | e⟩
          · cases h
          · exact ih _ _ _ _ _ hok h
          · cases h; exact .refl hok
        | some f =>
          simp only [hx] at h
          split at h
          · cases h; exact .refl hok
          · generalize fieldData (m.win b) (o + n) wt = q at h
            rcases q with e | (e | data)
            · cases h
            · cases h; exact .refl hok
            · simp only at h
              rcases hs : slotOfH vs f.offset with e | v
              · simp [hs] at h
              simp only [hs] at h
              have hv := slotOfH_mem hs
              have hok' : Alloc m v.arrays :=
                alloc_mono hok fun a ha => mem_arraysL.mpr ⟨v, List.mem_of_getElem? hv, ha⟩
              rcases hf : f.dec ⟨b.ptr + (o + n), data.length⟩ v m with e | ⟨w | ⟨w, e⟩, m1⟩
              · simp [hf] at h
              · simp only [hf] at h
                have hG := grows_set hv (hi _ _ hx _ _ _ _ _ hok' hf) hok
                exact hG.trans (ih _ _ _ _ _ hG.ok h)
              · simp only [hf] at h
                cases h
                exact grows_set hv (hi _ _ hx _ _ _ _ _ hok' hf) hok
      · simp only [hd] at h
        cases h; exact .refl hok
    · cases h; exact .refl hok

theorem fieldIndexH_mem {fields : List HField} {n : Nat} {f : HField} (h : fieldIndexH fields n = some f) :
    f ∈ fields := by
  have key : ∀ (l : List HField) (g : Nat → Option HField),
      (l.foldl (fun m f => fun n => if n = f.num then some f else m n) g) n = some f → f ∈ l ∨ g n = some f := by
    intro l
    induction l with
    | nil => intro g h; exact .inr h
    | cons x l ih =>
      intro g h
      rcases ih _ h with h | h
      · exact .inl (List.mem_cons_of_mem _ h)
      · simp only at h
        split at h
        · cases h; exact .inl (by simp)
        · exact .inr h
  rcases key _ _ h with h | h
  · exact h
  · cases h

theorem tame_struct {fields : List HField} (hi : ∀ f ∈ fields, Tame f.dec) : Tame (structDecodeH fields) := by
  intro b v m r m' hok h
  unfold structDecodeH at h
  cases v with
  | struct vs => exact tame_loop (fun n f hf => hi f (fieldIndexH_mem hf)) b _ _ _ _ _ _ hok h
  | _ => cases h

theorem arraysL_replicate (n : Nat) (z : Val) : HVal.arraysL (List.replicate n (HVal.ofVal z)) = [] := by
  induction n with
  | zero => rfl
  | succ n ih => simp [List.replicate_succ, HVal.arraysL, arrays_ofVal, ih]

theorem growIfFullH_arrays (z : Val) (es sp : List HVal) :
    HVal.arraysL (growIfFullH (.ofVal z) es sp) = HVal.arraysL sp := by
  unfold growIfFullH
  split
  · next h => subst h; rw [arraysL_replicate]; rfl
  · rfl

theorem mem_arraysM_assign {k : Key} {v : HVal} {a : Hdr} : ∀ {es : List (Key × HVal)},
    a ∈ HVal.arraysM (mapAssignH es k v) → a ∈ HVal.arraysM es ∨ a ∈ v.arrays
  | [], h => by simpa [mapAssignH, HVal.arraysM] using h
  | (k', v') :: es, h => by
    unfold mapAssignH at h
    split at h
    · simp only [HVal.arraysM, List.mem_append] at h ⊢
      rcases h with h | h
      · exact .inr h
      · exact .inl (.inr h)
    · simp only [HVal.arraysM, List.mem_append] at h ⊢
      rcases h with h | h
      · exact .inl (.inl h)
      · rcases mem_arraysM_assign h with h | h
        · exact .inl (.inr h)
        · exact .inr h

theorem tame_codec {grow : Nat → Nat → Nat} (hg : ∀ c n, n ≤ grow c n) {zeros : TypeId → Val} {rec : TypeId → DecH}
    (hr : ∀ t, Tame (rec t)) : ∀ c, Tame (codecDecodeH grow zeros rec c)
  | .normal s => tame_scalar s
  | .required s => tame_scalar s
  | .option s => tame_option s
  | .bytes => tame_bytes hg
  | .ptr z c => by
    intro b v m r m' hok h
    unfold codecDecodeH at h
    cases v with
    | nilp =>
      simp only [bind, Except.bind, pure, Except.pure] at h
      rcases hs : codecDecodeH grow zeros rec c b (.ofVal z) m with e | ⟨r0, m0⟩
      · simp [hs] at h
      simp only [hs] at h
      cases h
      rw [val_wrap]
      have := tame_codec hg hr c _ _ _ _ _ (by rw [arrays_ofVal]; exact alloc_nil _) hs
      rw [arrays_ofVal] at this
      exact this
    | ptr v =>
      simp only [bind, Except.bind, pure, Except.pure] at h
      rcases hs : codecDecodeH grow zeros rec c b v m with e | ⟨r0, m0⟩
      · simp [hs] at h
      simp only [hs] at h
      cases h
      rw [val_wrap]
      exact tame_codec hg hr c b v m _ _ hok hs
    | _ => cases h
  | .msg t => by
    have key : ∀ (b : Win) (v : HVal) (m : Arena) (r : HRes) (m' : Arena), Alloc m v.arrays →
        (match decodeVarint (m.win b) with
          | (_, n, err) => match err with
            | some e => (Except.ok (.err (.ptr v) e, m) : Except Fault (HRes × Arena))
            | none => (goFrom (m.win b) n).bind fun rest =>
              (rec t ⟨b.ptr + n, rest.length⟩ v m).bind fun x => match x with
                | (.ok v l, m) => .ok (.ok (.ptr v) (n + l), m)
                | (.err v e, m) => .ok (.err (.ptr v) e, m)) = .ok (r, m') →
        MemGrows m v.arrays m' r.val.arrays := by
      intro b v m r m' hok h
      generalize decodeVarint (m.win b) = q at h
      rcases q with ⟨x, n, _ | e⟩
      · simp only [Except.bind] at h
        generalize goFrom (m.win b) n = q at h
        rcases q with e | s
        · cases h
        simp only at h
        rcases hs : rec t ⟨b.ptr + n, s.length⟩ v m with e | ⟨w | ⟨w, e⟩, m0⟩
        · simp [hs] at h
        · simp only [hs] at h; cases h
          have := hr t _ _ _ _ _ hok hs; exact this
        · simp only [hs] at h; cases h
          have := hr t _ _ _ _ _ hok hs; exact this
      · cases h; exact .refl hok
    intro b v m r m' hok h
    unfold codecDecodeH at h
    cases v with
    | nilp =>
      have := key b (.ofVal (zeros t)) m r m' (by rw [arrays_ofVal]; exact alloc_nil _) h
      rwa [arrays_ofVal] at this
    | ptr v => exact key b v m r m' hok h
    | _ => cases h
  | .slice z c => by
    intro b v m r m' hok h
    unfold codecDecodeH at h
    cases v with
    | slice isNil es sp =>
      simp only at h
      have hA := growIfFullH_arrays z es sp
      generalize growIfFullH (.ofVal z) es sp = g at h hA
      cases g with
      | nil => cases h
      | cons slot rest =>
        simp only [bind, Except.bind, pure, Except.pure] at h
        have hsub : ∀ a ∈ slot.arrays, a ∈ (HVal.slice isNil es sp).arrays := fun a ha => by
          simp only [HVal.arrays, List.mem_append, ← hA, HVal.arraysL]; exact .inr (.inl ha)
        rcases hs : codecDecodeH grow zeros rec c b slot m with e | ⟨w | ⟨w, e⟩, m0⟩
        · simp [hs] at h
        · simp only [hs] at h; cases h
          refine (tame_codec hg hr c _ _ _ _ _ (alloc_mono hok hsub) hs).lift hsub (fun a ha => ?_) hok
          simp only [HVal.arrays, HRes.val, List.mem_append, arraysL_append, ← hA, HVal.arraysL, List.not_mem_nil,
            or_false] at ha ⊢
          grind
        · simp only [hs] at h; cases h
          refine (tame_codec hg hr c _ _ _ _ _ (alloc_mono hok hsub) hs).lift hsub (fun a ha => ?_) hok
          simp only [HVal.arrays, HRes.val, List.mem_append, ← hA, HVal.arraysL] at ha ⊢
          grind
    | _ => cases h
  | .map i kc vc kd vd => by
    have hk := tame_codec (zeros := zeros) hg hr kd
    have hv := tame_codec (zeros := zeros) hg hr vd
    intro b v m r m' hok h
    unfold codecDecodeH at h
    cases v with
    | map isNil es =>
      simp only at h
      split at h
      · cases h; exact .refl hok
      generalize decodeVarint (m.win b) = q at h
      rcases q with ⟨x, n, _ | e⟩
      · simp only [bind, Except.bind, pure, Except.pure] at h
        generalize goFrom (m.win b) n = q at h
        rcases q with e | s
        · cases h
        simp only at h
        have hE := tame_struct (fields :=
            [{ num := wtNumber i.eKey, wt := wtType i.eKey, offset := 0, dec := codecDecodeH grow zeros rec kd },
             { num := wtNumber i.eVal, wt := wtType i.eVal, offset := 1, dec := codecDecodeH grow zeros rec vd }])
          (fun f hf => by
            simp only [List.mem_cons, List.not_mem_nil, or_false] at hf
            rcases hf with rfl | rfl
            · exact hk
            · exact hv)
        have h0 : (HVal.struct [.ofVal i.kzero, .ofVal i.vzero]).arrays = [] := by
          simp [HVal.arrays, HVal.arraysL, arrays_ofVal]
        have hE := fun r m' => hE ⟨b.ptr + n, s.length⟩ (.struct [.ofVal i.kzero, .ofVal i.vzero]) m r m'
          (by rw [h0]; exact alloc_nil _)
        rw [h0] at hE
        rcases hs : structDecodeH
            [{ num := wtNumber i.eKey, wt := wtType i.eKey, offset := 0, dec := codecDecodeH grow zeros rec kd },
             { num := wtNumber i.eVal, wt := wtType i.eVal, offset := 1, dec := codecDecodeH grow zeros rec vd }]
            ⟨b.ptr + n, s.length⟩ (.struct [.ofVal i.kzero, .ofVal i.vzero]) m with e | ⟨w | ⟨w, e⟩, m0⟩
        · simp [hs] at h
        · simp only [hs] at h
          have hG := hE _ _ hs
          split at h
          · next hx =>
            cases hx
            split at h
            · cases h
              refine hG.lift nofun (fun a ha => ?_) hok
              rcases mem_arraysM_assign ha with ha | ha
              · exact .inl ha
              · exact .inr (by simp only [HRes.val, HVal.arrays, HVal.arraysL, List.mem_append]; exact .inr (.inl ha))
            · cases h
          · cases h
          · next hx => cases hx
        · simp only [hs] at h
          cases h
          exact (hE _ _ hs).lift nofun (fun a ha => .inl ha) hok
      · cases h; exact .refl hok
    | _ => cases h

theorem tame_msg {grow : Nat → Nat → Nat} (hg : ∀ c n, n ≤ grow c n) (env : Env) :
    ∀ d t, Tame (decodeMsgH grow env d t)
  | 0, _ => fun _ _ _ _ _ _ h => nomatch h
  | d + 1, t => tame_struct fun f hf => by
    obtain ⟨g, _, rfl⟩ := List.mem_map.mp hf
    exact tame_codec hg (tame_msg hg env d) g.codec

end Pb
