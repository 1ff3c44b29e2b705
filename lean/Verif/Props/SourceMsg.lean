import Verif.Proofs.SourceKnotDec
import Verif.Props.RoundTrip
import Verif.Props.Source
/-
C76: the methods `size`, `encode` and `decode` of `structInfo` (struct.go), run from the source text in /repo together with
all functions they call, do what the model says. A run is `runInfo env hit d j t`: `j` bounds the calls of codecs inside each
other, `d` the iterations of each loop; from some `j` on the result no longer depends on it. `hit` says when a `sync.Pool` has something to give: it does not matter.
-/
namespace Pb.Props
open Pb Go Spec

variable {env : Env} {hit : List V → Val → Bool} {d : Nat}

/-- `info.size(p)` returns what `Size` returns for the message at `p`, and writes nothing. -/
theorem C76_size (hd : d ≤ 2 ^ 62) (t : TypeId) (v : Val) (s : Nat) (h : size env (.msg t v) = .ok s) (hs : s < 2 ^ 64)
    (hb : Go.Below d v) :
    ∃ N, ∀ j, N ≤ j → ∀ p m, getPath p m = .ok v →
      runInfo env hit d j t t!"size" [.ptr p .uptr] m = .ok ([.int (BitVec.ofNat 64 s)], m) := by
  obtain ⟨N, hN⟩ := Go.size_msg (env := env) (hit := hit) hd (v.depth + 1) t
  refine ⟨N, fun j hj p m hp => ?_⟩
  rw [runInfo, program_eq]
  exact hN j hj p v s m hp hb h hs

/-- `info.encode(b[:0], p)` returns the bytes `Marshal` returns for the message at `p`, and writes nothing. The map keys
are scalars, as Go's type checker and generated code make them. -/
theorem C76_encode (hd : d ≤ 2 ^ 62) (hk : ∀ t, ∀ f ∈ (env t).fields, ScalarKeys f.codec) (t : TypeId) (v : Val) (b : Bytes)
    (h : marshal env (.msg t v) = .ok (.ok b)) (hl : b.length < 2 ^ 63) (s : Nat) (hs : size env (.msg t v) = .ok s)
    (hs' : s < 2 ^ 64) (hb : Go.Below d v) :
    ∃ N, ∀ j, N ≤ j → ∀ p m, getPath p m = .ok v →
      runInfo env hit d j t t!"encode" [.bytes (some []), .ptr p .uptr] m = .ok ([.bytes (some b)], m) := by
  obtain ⟨N, hN⟩ := enc_msg (env := env) (hit := hit) hd hk (v.depth + 1) t
  refine ⟨N, fun j hj p m hp => ?_⟩
  rw [runInfo, program_eq]
  have he : encodeMsg env (v.depth + 1) t [] v = .ok b := by
    simp only [marshal, size] at h hs
    rw [hs] at h
    simp only [bind, Except.bind, pure, Except.pure] at h
    cases hq : encodeMsg env (v.depth + 1) t [] v with
    | error e => rw [hq] at h; cases h
    | ok b' => rw [hq] at h; cases h; rfl
  exact hN j hj p v [] b s m hp hb hs hs' he hl

theorem _root_.Pb.Go.zero_room {L : Layout} (hg : WFEnv L env) (t : TypeId) : Room 0 (env t).zero := by
  rw [hg.zero]
  simp only [Room]
  refine rooms_iff.2 fun v hv => ?_
  obtain ⟨s, _, rfl⟩ := List.mem_map.1 hv
  exact room_zero s

/-- What `info.decode(b, p)` returns, given what `Unmarshal` says: the same error from inside, or the number of bytes read. -/
def decodeSays (b : Bytes) : Option ApiErr → List V → Prop
  | none, out => out = [.int (BitVec.ofNat 64 b.length), .err none]
  | some (.decode e), out => ∃ n, out = [.int n, .err (some e)]
  | some _, _ => False

theorem _root_.Pb.Go.info_decode (hz : ∀ t, Room 0 (env t).zero) (hf : ∀ t, ∀ f ∈ (env t).fields, Zeros f.codec)
    (t : TypeId) (v w : Val) (b : Bytes) (e : Option ApiErr) (hb0 : b ≠ []) (hb : b.length < 2 ^ 57) (hbd : b.length < d) (hv : Room (2 ^ 57) v) (h : unmarshal env b (.msg t v) = .ok ⟨.msg t w, e⟩) :
    ∃ N, ∀ j, N ≤ j → ∀ p m, Writable p → getPath p m = .ok v →
      ∃ out m', setPath w p m = .ok m' ∧ decodeSays b e out ∧
        runInfo env hit d j t t!"decode" [.bytes (some b), .ptr p .uptr] m = .ok (out, m') := by
  obtain ⟨N, hN⟩ := dec_msg (env := env) (hit := hit) (d := d) hz hf (b.length + 1) t
  refine ⟨N, fun j hj p m hwp hp => ?_⟩
  rw [runInfo, program_eq]
  have hl : ¬ b.length = 0 := by simpa using hb0
  simp only [unmarshal, hl, if_false, bind, Except.bind, pure, Except.pure] at h
  cases hq : decodeMsg env (b.length + 1) t b v with
  | error f => rw [hq] at h; cases h
  | ok r =>
    rw [hq] at h
    have hroom := grows_msg hz hf (b.length + 1) t b v (2 ^ 57) r hq hv
    obtain ⟨m', hm'⟩ := setPath_ok (x := w) hwp hp
    cases r with
    | err u x =>
      cases h
      obtain ⟨n, ho⟩ := hN j hj p v b _ m hwp hp hb hbd hq (room_small (by omega) hroom)
      rw [hm'] at ho
      exact ⟨_, m', hm', ⟨n, rfl⟩, ho⟩
    | ok u n =>
      have hnl : n = b.length := by
        simp only [decodeMsg] at hq
        by_cases hs : ∃ vs, v = .struct vs
        · obtain ⟨vs, rfl⟩ := hs
          rw [structDecode_eq _ (fun k f hf => by
            rw [fieldIndex_dfields] at hf
            simp only [Option.map_eq_some_iff] at hf
            obtain ⟨g, _, rfl⟩ := hf
            exact bounded_codec _ _ (bounded_msg env _) _)] at hq
          rcases hr : run (fieldIndex (dfields (fun t => (env t).zero) (decodeMsg env b.length) (env t).fields)) b vs with
            x | ⟨vs', _ | x⟩ <;> simp only [hr, toDRes] at hq <;> cases hq
          rfl
        · cases v <;> first | exact absurd ⟨_, rfl⟩ hs | cases hq
      subst hnl
      simp only [Nat.lt_irrefl, if_false] at h
      cases h
      have ho := hN j hj p v b _ m hwp hp hb hbd hq (room_small (by omega) hroom)
      simp only [decodeOut, hm', Except.map] at ho
      exact ⟨_, m', hm', rfl, ho⟩

/-- `info.decode(b, p)` leaves at `p` what `Unmarshal` leaves there and returns the same error. The slices in the message, other
than those in maps, are not too large. -/
theorem C76_decode {L : Layout} (hg : WFEnv L env) (t : TypeId) (v w : Val) (b : Bytes) (e : Option ApiErr) (hb0 : b ≠ [])
    (hb : b.length < 2 ^ 57) (hbd : b.length < d) (hv : Room (2 ^ 57) v) (h : unmarshal env b (.msg t v) = .ok ⟨.msg t w, e⟩) :
    ∃ N, ∀ j, N ≤ j → ∀ p m, Writable p → getPath p m = .ok v →
      ∃ out m', setPath w p m = .ok m' ∧ decodeSays b e out ∧
        runInfo env hit d j t t!"decode" [.bytes (some b), .ptr p .uptr] m = .ok (out, m') :=
  info_decode (zero_room hg) (fun t f h => zeros_wf (hg.codec t f h)) t v w b e hb0 hb hbd hv h

/-- The source, run: what `info.encode` writes for a canonical message, `info.decode` reads into a new message, without error
and to the last byte, and what is there then is equal to the original. Missing: as in `C01_round_trip_partial`. -/
theorem C76_round_trip_partial {L : Layout} (hg : Good L env) (hd : d ≤ 2 ^ 62)
    (hk : ∀ t, ∀ f ∈ (env t).fields, ScalarKeys f.codec) (t : TypeId) (vs : List Val) (b : Bytes)
    (hv : FitsMsg L t (.struct vs)) (ho : EncOKMsg env t (.struct vs)) (hc : Canon env (.msg t) (.ptr (.struct vs)))
    (hbl : Go.Below d (.struct vs)) (h : marshal env (.msg t (.struct vs)) = .ok (.ok b)) (hb0 : b ≠ [])
    (hb : b.length < 2 ^ 57) (hbd : b.length < d) :
    ∃ N w, w.obs = (Val.struct vs).obs ∧ ∀ j, N ≤ j →
      (∀ p m, getPath p m = .ok (.struct vs) →
        runInfo env hit d j t t!"encode" [.bytes (some []), .ptr p .uptr] m = .ok ([.bytes (some b)], m)) ∧
      runInfo env hit d j t t!"decode" [.bytes (some b), .ptr [] .uptr] (env t).zero =
        .ok ([.int (BitVec.ofNat 64 b.length), .err none], w) := by
  obtain ⟨w, hu, hw⟩ := C01_round_trip_partial hg t vs b hv ho hc h (by omega)
  obtain ⟨b', hb', hsz⟩ := C02_size_is_length_partial hg t _ hv ho
  rw [h] at hb'
  cases hb'
  obtain ⟨N, hN⟩ := C76_encode (hit := hit) hd hk t _ b h (by omega) _ hsz (by omega) hbl
  obtain ⟨M, hM⟩ := C76_decode (hit := hit) hg.wf t _ w b none hb0 hb hbd (room_mono (Nat.zero_le _) (zero_room hg.wf t)) hu
  refine ⟨N + M, w, hw, fun j hj => ⟨hN j (by omega), ?_⟩⟩
  obtain ⟨out, m', h1, h2, h3⟩ := hM j (by omega) [] (env t).zero (by decide) rfl
  cases h1
  subst h2
  exact h3

/-! ### cases -/

/-- The fields of `Node` have scalar map keys, `Node` with all its fields set is within the bounds, and `Size` and `Marshal`
succeed for it. -/
theorem sample_scalarKeys : ∀ t, ∀ f ∈ (Sample.env t).fields, ScalarKeys f.codec := by
  intro t f h
  match t with
  | 0 =>
    simp only [Sample.env, Sample.fields, List.mem_cons, List.not_mem_nil, or_false] at h
    rcases h with rfl | rfl | rfl | rfl | rfl | rfl | rfl <;> simp [ScalarKeys, Sample.attrCodec]
  | 1 =>
    simp only [Sample.env, Sample.fields, List.mem_cons, List.not_mem_nil, or_false] at h
    rcases h with rfl | rfl | rfl | rfl <;> simp [ScalarKeys]
  | 2 =>
    simp only [Sample.env, Sample.fields, List.mem_cons, List.not_mem_nil, or_false] at h
    rcases h with rfl | rfl <;> simp [ScalarKeys]
  | _ + 3 => simp [Sample.env, Sample.fields] at h

theorem node_below : Go.Below 100 Sample.node := by
  simp [Go.Below, Belows, BelowMap, Sample.node, Sample.leaf, Sample.emptyNode, Sample.env, Sample.layout, Shape.zero]

example : ∃ s b N, s = b.length ∧ b.length = 37 ∧ ∀ j, N ≤ j →
    runInfo Sample.env hit 100 j 0 t!"size" [.ptr [.slot 1, .deref] .uptr] (.struct [.nilp, .ptr Sample.node]) =
      .ok ([.int (BitVec.ofNat 64 s)], .struct [.nilp, .ptr Sample.node]) ∧
    runInfo Sample.env hit 100 j 0 t!"encode" [.bytes (some []), .ptr [.slot 1, .deref] .uptr] (.struct [.nilp, .ptr Sample.node]) =
      .ok ([.bytes (some b)], .struct [.nilp, .ptr Sample.node]) := by
  obtain ⟨N, hN⟩ := C76_size (env := Sample.env) (hit := hit) (s := 37) (d := 100) (by decide) 0 Sample.node (h := rfl) (by decide) node_below
  obtain ⟨M, hM⟩ := C76_encode (hit := hit) (d := 100) (by decide) sample_scalarKeys 0 Sample.node _ rfl (by decide) 37 rfl (by decide) node_below
  exact ⟨37, _, N + M, rfl, rfl, fun j hj => ⟨hN j (by omega) _ _ rfl, hM j (by omega) _ _ rfl⟩⟩

/-- `Node` with a map is written and read back, whether or not the pool gives a struct for the entries. -/
example : ∃ vs b N w, Sample.plain = .struct vs ∧ (∃ es, vs[4]? = some (.map false es) ∧ es.length = 2) ∧ w.obs = Sample.plain.obs ∧ ∀ j, N ≤ j →
    runInfo Sample.env hit 100 j 0 t!"encode" [.bytes (some []), .ptr [] .uptr] Sample.plain = .ok ([.bytes (some b)], Sample.plain) ∧
    runInfo Sample.env hit 100 j 0 t!"decode" [.bytes (some b), .ptr [] .uptr] (Sample.env 0).zero =
      .ok ([.int (BitVec.ofNat 64 b.length), .err none], w) := by
  obtain ⟨N, w, hw, h⟩ := C76_round_trip_partial (hit := hit) (d := 100) Sample.good (by decide) sample_scalarKeys 0 _ _ Sample.plain_fits
    (encOK_of_types Sample.good Sample.mapsSized 0 _ Sample.plain_fits) Sample.plain_canon
    (by simp [Go.Below, Belows, BelowMap, Sample.env, Sample.layout, Shape.zero]) rfl (by decide) (by decide) (by decide)
  exact ⟨_, _, N, w, rfl, ⟨_, rfl, rfl⟩, hw, fun j hj => ⟨(h j hj).1 [] _ rfl, (h j hj).2⟩⟩

/-- `type Tree struct { Id int32 ...1; Kids []*Tree ...3 }` -/
def kidsEnv : Env := fun _ =>
  ⟨[⟨0, Sample.mkTag 1 0, .normal .int32⟩, ⟨1, Sample.mkTag 3 2, .slice .nilp (.msg 0)⟩], .struct [.w32 0#32, .slice true [] []]⟩

def kidsLayout : Layout := fun _ => [.w32, .slice (.msg 0)]

theorem kids_scalarKeys : ∀ t, ∀ f ∈ (kidsEnv t).fields, ScalarKeys f.codec := by
  intro t f h
  simp only [kidsEnv, List.mem_cons, List.not_mem_nil, or_false] at h
  rcases h with rfl | rfl <;> exact trivial

theorem kids_good : Good kidsLayout kidsEnv where
  wf := {
    zero := fun _ => rfl
    slot := fun t f h => by
      simp only [kidsEnv, List.mem_cons, List.not_mem_nil, or_false] at h
      rcases h with rfl | rfl <;> rfl
    codec := fun t f h => by
      simp only [kidsEnv, List.mem_cons, List.not_mem_nil, or_false] at h
      rcases h with rfl | rfl <;> simp [Codec.WF, Codec.shape, Shape.zero] }
  tags := fun t f h => by
    simp only [kidsEnv, List.mem_cons, List.not_mem_nil, or_false] at h
    rcases h with rfl | rfl <;> simp [FTag.OK, Codec.TagsOK, Sample.mkTag]
  writes t f h := by
    simp only [kidsEnv, List.mem_cons, List.not_mem_nil, or_false] at h
    rcases h with rfl | rfl <;> simp [Codec.Writes, Scalar.wire, Sample.mkTag, keyType]
  supported t f h := by
    simp only [kidsEnv, List.mem_cons, List.not_mem_nil, or_false] at h
    rcases h with rfl | rfl <;> exact trivial
  distinct t := by simp [kidsEnv, Sample.mkTag, keyNumber]

theorem kids_mapsSized : ∀ t, ∀ f ∈ (kidsEnv t).fields, f.codec.MapsSized := by
  intro t f h
  simp only [kidsEnv, List.mem_cons, List.not_mem_nil, or_false] at h
  rcases h with rfl | rfl <;> exact trivial

/-- `Tree{Id: 300, Kids: [&Tree{Id: 5}]}` -/
def kidsLeaf : List Val := [.w32 5#32, .slice true [] []]
def kidsTree : List Val := [.w32 300#32, .slice false [.ptr (.struct kidsLeaf)] []]

theorem kidsLeaf_fits : FitsMsg kidsLayout 0 (.struct kidsLeaf) := by
  refine .msg _ _ rfl fun i s v hs hv => ?_
  match i with
  | 0 => cases hs; cases hv; constructor
  | 1 => cases hs; cases hv; constructor <;> simp
  | _ + 2 => simp [kidsLayout] at hs

theorem kids_fits : FitsMsg kidsLayout 0 (.struct kidsTree) := by
  refine .msg _ _ rfl fun i s v hs hv => ?_
  match i with
  | 0 => cases hs; cases hv; constructor
  | 1 =>
    cases hs; cases hv
    refine .slice _ _ _ _ ?_ ?_ ?_ <;> simp
    exact kidsLeaf_fits
  | _ + 2 => simp [kidsLayout] at hs

theorem kids_places {a b : Val} {zs : List Val} {hz : zs.length = 2} (i : Nat) (h : ∀ f ∈ (kidsEnv 0).fields, f.offset ≠ i) :
    [a, b][i]? = zs[i]? := by
  have h0 := h ⟨0, Sample.mkTag 1 0, .normal .int32⟩ (by simp [kidsEnv])
  have h1 := h ⟨1, Sample.mkTag 3 2, .slice .nilp (.msg 0)⟩ (by simp [kidsEnv])
  match i with
  | 0 => exact absurd rfl h0
  | 1 => exact absurd rfl h1
  | _ + 2 => simp [hz]

theorem kidsLeaf_canon : Canon kidsEnv (.msg 0) (.ptr (.struct kidsLeaf)) := by
  refine .msg 0 _ _ rfl ?_ ?_
  · intro f hf v hv
    simp only [kidsEnv, List.mem_cons, List.not_mem_nil, or_false] at hf
    rcases hf with rfl | rfl <;> cases hv
    · exact .normal _ _
    · exact .slice _ _ [] [] (by simp) (by simp)
  · exact kids_places (hz := rfl)

theorem kids_canon : Canon kidsEnv (.msg 0) (.ptr (.struct kidsTree)) := by
  refine .msg 0 _ _ rfl ?_ ?_
  · intro f hf v hv
    simp only [kidsEnv, List.mem_cons, List.not_mem_nil, or_false] at hf
    rcases hf with rfl | rfl <;> cases hv
    · exact .normal _ _
    · refine .slice _ _ [_] [] ?_ ?_ <;> simp only [List.mem_singleton, forall_eq]
      · simp [Written]
      · exact kidsLeaf_canon
  · exact kids_places (hz := rfl)

example : ∃ b N w, b = [0x08#8, 0xac#8, 0x02#8, 0x1a#8, 0x02#8, 0x08#8, 0x05#8] ∧ w.obs = (Val.struct kidsTree).obs ∧ ∀ j, N ≤ j →
    runInfo kidsEnv hit 100 j 0 t!"encode" [.bytes (some []), .ptr [] .uptr] (.struct kidsTree) = .ok ([.bytes (some b)], .struct kidsTree) ∧
    runInfo kidsEnv hit 100 j 0 t!"decode" [.bytes (some b), .ptr [] .uptr] (kidsEnv 0).zero = .ok ([.int 7#64, .err none], w) := by
  obtain ⟨N, w, hw, h⟩ := C76_round_trip_partial (hit := hit) (d := 100) kids_good (by decide) kids_scalarKeys 0 kidsTree
    [0x08#8, 0xac#8, 0x02#8, 0x1a#8, 0x02#8, 0x08#8, 0x05#8] kids_fits
    (encOK_of_types kids_good kids_mapsSized 0 _ kids_fits) kids_canon (by simp [Go.Below, Belows, kidsTree, kidsLeaf]) rfl (by decide)
    (by decide) (by decide)
  exact ⟨_, N, w, rfl, hw, fun j hj => ⟨(h j hj).1 [] _ rfl, (h j hj).2⟩⟩

/-- The last byte is missing: field 3 of `Tree` is reported, and the number read so far is there. -/
example : ∃ N, ∀ j, N ≤ j → ∃ out m', decodeSays [0x08#8, 0xac#8, 0x02#8, 0x1a#8, 0x02#8, 0x08#8]
      (some (.decode (.field 3 2 .unexpectedEOF))) out ∧
    m' = .struct [.nilp, .struct [.w32 300#32, .slice true [] []]] ∧
    runInfo kidsEnv hit 100 j 0 t!"decode" [.bytes (some [0x08#8, 0xac#8, 0x02#8, 0x1a#8, 0x02#8, 0x08#8]), .ptr [.slot 1] .uptr]
      (.struct [.nilp, (kidsEnv 0).zero]) = .ok (out, m') := by
  obtain ⟨N, hN⟩ := C76_decode (hit := hit) (d := 100) kids_good.wf 0 (kidsEnv 0).zero (.struct [.w32 300#32, .slice true [] []])
    [0x08#8, 0xac#8, 0x02#8, 0x1a#8, 0x02#8, 0x08#8] (some (.decode (.field 3 2 .unexpectedEOF))) (by decide) (by decide)
    (by decide) (by simp [Room, Rooms, kidsEnv]) rfl
  refine ⟨N, fun j hj => ?_⟩
  obtain ⟨out, m', h1, h2, h3⟩ := hN j hj [.slot 1] (.struct [.nilp, (kidsEnv 0).zero]) (by decide) rfl
  cases h1
  exact ⟨_, _, h2, rfl, h3⟩

end Pb.Props
