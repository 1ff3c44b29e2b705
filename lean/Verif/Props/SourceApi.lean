import Verif.Proofs.SourceApi
import Verif.Props.SourceMsg
import Verif.Props.Program
/-
C77: the exported functions `Size`, `Marshal` and `Unmarshal` (proto.go), run from the source text in /repo together with all
functions they call except `cachedStructInfoOf`, do what the model says, for every argument. A run is `runApi env hit d j`: as in C76,
`j` bounds the calls of codecs inside each other, and `d` the iterations of each loop.
-/
namespace Pb.Props
open Pb Go Spec

variable {env : Env} {hit : List V → Val → Bool} {d : Nat}

/-- An `error` as a value. -/
def errValue : Option ApiErr → V
  | none => .err none
  | some (.decode e) => .err (some e)
  | some e => .apierr e

/-- What `Marshal` returns. -/
def marshalResult : Except ApiErr Bytes → List V
  | .ok b => [.bytes (some b), .err none]
  | .error e => [.bytes none, errValue (some e)]

/-- C77. Arguments that are not pointers to messages, and nil pointers: what the functions return, and that they panic, and nothing is
written. -/
theorem C77_misuse (a : Arg) (ha : ∀ t v, a ≠ .msg t v) (x : V) (m : Val) (hx : Passed m a x) (b : Option Bytes)
    (hb : (b.getD []).length < 2 ^ 64) (j : Nat) :
    runApi env hit d j t!"Size" [x] m = (size env a).map (fun n => ([.int (BitVec.ofNat 64 n)], m)) ∧
    runApi env hit d j t!"Marshal" [x] m = (marshal env a).map (fun r => (marshalResult r, m)) ∧
    runApi env hit d j t!"Unmarshal" [.bytes b, x] m = (unmarshal env (b.getD []) a).map (fun r => ([errValue r.err], m)) := by
  have hw : ∀ {x : V}, x = .null .uptr → x = .null .uptr ∨ ∃ p, x = .ptr p .uptr := fun h => .inl h
  have he : ∀ {t w}, (b.getD []) = [] → runApi env hit d j t!"Unmarshal" [.bytes b, .iface t w] m = .ok ([.err none], m) :=
    fun h => api_unmarshal_empty h
  have hn : ¬ (b.getD []) = [] → ∃ c, b = some c ∧ ¬ c.length = 0 ∧ ¬ BitVec.ofNat 64 c.length = 0#64 := by
    intro h
    cases b with
    | none => exact absurd rfl h
    | some c =>
      refine ⟨c, rfl, by simpa using h, fun hc => h ?_⟩
      have := congrArg BitVec.toNat hc
      simp only [Option.getD, BitVec.toNat_ofNat] at this hb ⊢
      rw [Nat.mod_eq_of_lt hb] at this
      exact List.length_eq_zero_iff.1 this
  by_cases h0 : (b.getD []) = []
  · cases a with
    | msg t v => exact absurd rfl (ha t v)
    | nilIface => cases hx; exact ⟨api_size_nil, api_marshal_nil, by rw [he h0, h0]; rfl⟩
    | nonPtr =>
      obtain ⟨t, w, rfl, ht, hw⟩ := hx
      exact ⟨api_size_nonPtr ht hw, api_marshal_nonPtr ht hw, by rw [he h0, h0]; rfl⟩
    | ptrOther n =>
      obtain ⟨t, w, rfl, ht, hw'⟩ := hx
      have hw' : w = .null .uptr ∨ ∃ p, w = .ptr p .uptr := by
        cases n with
        | true => exact .inl hw'
        | false => exact .inr hw'
      exact ⟨api_size_other ht hw', api_marshal_other ht hw', by rw [he h0, h0]; rfl⟩
    | nilMsg t =>
      cases hx
      exact ⟨api_size_msg (.inl rfl) info_size_nil, api_marshal_msg (.inl rfl) info_size_nil info_encode_nil, by rw [he h0, h0]; rfl⟩
  · obtain ⟨c, rfl, hc, hc'⟩ := hn h0
    simp only [Option.getD]
    cases a with
    | msg t v => exact absurd rfl (ha t v)
    | nilIface => cases hx; exact ⟨api_size_nil, api_marshal_nil, by rw [api_unmarshal_nil hc', unmarshal, if_neg hc]; rfl⟩
    | nonPtr =>
      obtain ⟨t, w, rfl, ht, hw⟩ := hx
      exact ⟨api_size_nonPtr ht hw, api_marshal_nonPtr ht hw, by rw [api_unmarshal_nonPtr hc' ht hw, unmarshal, if_neg hc]; rfl⟩
    | ptrOther n =>
      obtain ⟨t, w, rfl, ht, hw'⟩ := hx
      cases n with
      | true =>
        cases hw'
        exact ⟨api_size_other ht (.inl rfl), api_marshal_other ht (.inl rfl), by rw [api_unmarshal_null hc', unmarshal, if_neg hc]; rfl⟩
      | false =>
        obtain ⟨p, rfl⟩ := hw'
        exact ⟨api_size_other ht (.inr ⟨p, rfl⟩), api_marshal_other ht (.inr ⟨p, rfl⟩),
          by rw [api_unmarshal_other hc' ht, unmarshal, if_neg hc]; rfl⟩
    | nilMsg t =>
      cases hx
      exact ⟨api_size_msg (.inl rfl) info_size_nil, api_marshal_msg (.inl rfl) info_size_nil info_encode_nil,
        by rw [api_unmarshal_null hc', unmarshal, if_neg hc]; rfl⟩

/-- C77. `Size` of a message. -/
theorem C77_size (hd : d ≤ 2 ^ 62) (t : TypeId) (v : Val) (s : Nat) (h : size env (.msg t v) = .ok s) (hs : s < 2 ^ 64)
    (hb : Go.Below d v) :
    ∃ N, ∀ j, N ≤ j → ∀ x m, Passed m (.msg t v) x → runApi env hit d j t!"Size" [x] m = .ok ([.int (BitVec.ofNat 64 s)], m) := by
  obtain ⟨N, hN⟩ := C76_size (hit := hit) hd t v s h hs hb
  refine ⟨N, fun j hj x m hx => ?_⟩
  obtain ⟨p, rfl, _, hp⟩ := hx
  exact api_size_msg (.inr ⟨p, rfl⟩) (hN j hj p m hp)

/-- C77. `Marshal` of a message. The map keys are scalars, as Go's type checker and generated code make them. -/
theorem C77_marshal (hd : d ≤ 2 ^ 62) (hk : ∀ t, ∀ f ∈ (env t).fields, ScalarKeys f.codec) (t : TypeId) (v : Val) (b : Bytes)
    (h : marshal env (.msg t v) = .ok (.ok b)) (hl : b.length < 2 ^ 63) (hs : ∀ s, size env (.msg t v) = .ok s → s < 2 ^ 64)
    (hb : Go.Below d v) :
    ∃ N, ∀ j, N ≤ j → ∀ x m, Passed m (.msg t v) x →
      runApi env hit d j t!"Marshal" [x] m = .ok (marshalResult (.ok b), m) := by
  have hsz : ∃ s, size env (.msg t v) = .ok s := by
    simp only [marshal] at h
    simp only [size]
    cases hq : sizeMsg env (v.depth + 1) t v with
    | error e => rw [hq] at h; cases h
    | ok s => exact ⟨s, rfl⟩
  obtain ⟨s, hsz⟩ := hsz
  obtain ⟨N, hN⟩ := C76_size (hit := hit) hd t v s hsz (hs s hsz) hb
  obtain ⟨M, hM⟩ := C76_encode (hit := hit) hd hk t v b h hl s hsz (hs s hsz) hb
  refine ⟨N + M, fun j hj x m hx => ?_⟩
  obtain ⟨p, rfl, _, hp⟩ := hx
  exact api_marshal_msg (.inr ⟨p, rfl⟩) (hN j (by omega) p m hp) (hM j (by omega) p m hp)

/-- C77. `Unmarshal` into the message at `p`: what it leaves there, and the error. -/
theorem C77_unmarshal {L : Layout} (hg : WFEnv L env) (t : TypeId) (v w : Val) (b : Option Bytes) (e : Option ApiErr)
    (hb : (b.getD []).length < 2 ^ 57) (hbd : (b.getD []).length < d) (hv : Room (2 ^ 57) v)
    (h : unmarshal env (b.getD []) (.msg t v) = .ok ⟨.msg t w, e⟩) :
    ∃ N, ∀ j, N ≤ j → ∀ p m, Writable p → getPath p m = .ok v →
      ∃ m', setPath w p m = .ok m' ∧
        runApi env hit d j t!"Unmarshal" [.bytes b, .iface (some (.ptr (.struct t))) (.ptr p .uptr)] m = .ok ([errValue e], m') := by
  by_cases h0 : (b.getD []) = []
  · rw [h0] at h
    cases h
    exact ⟨0, fun j _ p m hwp hp => ⟨m, setPath_same hwp hp, api_unmarshal_empty h0⟩⟩
  · cases b with
    | none => exact absurd rfl h0
    | some b =>
      simp only [Option.getD] at h h0 hb hbd
      obtain ⟨N, hN⟩ := C76_decode (hit := hit) hg t v w b e h0 hb hbd hv h
      refine ⟨N, fun j hj p m hwp hp => ?_⟩
      have hc : ¬ BitVec.ofNat 64 b.length = 0#64 := by
        intro hc
        have := congrArg BitVec.toNat hc
        simp only [BitVec.toNat_ofNat] at this
        rw [Nat.mod_eq_of_lt (by omega)] at this
        exact h0 (List.length_eq_zero_iff.1 this)
      obtain ⟨out, m', h1, h2, h3⟩ := hN j hj p m hwp hp
      refine ⟨m', h1, ?_⟩
      match e, h2 with
      | none, h2 => cases h2; exact api_unmarshal_ok hc h3
      | some (.decode e), ⟨n, h2⟩ => cases h2; exact api_unmarshal_err hc h3

/-- C77. The source, run: what `Marshal` returns for a canonical message, `Unmarshal` reads into a new message without error, and what
is there then is equal to the original. Missing: as in `C01_round_trip_partial`. -/
theorem C77_round_trip_partial {L : Layout} (hg : Good L env) (hd : d ≤ 2 ^ 62)
    (hk : ∀ t, ∀ f ∈ (env t).fields, ScalarKeys f.codec) (t : TypeId) (vs : List Val) (b : Bytes)
    (hv : FitsMsg L t (.struct vs)) (ho : EncOKMsg env t (.struct vs)) (hc : Canon env (.msg t) (.ptr (.struct vs)))
    (hbl : Go.Below d (.struct vs)) (h : marshal env (.msg t (.struct vs)) = .ok (.ok b)) (hb : b.length < 2 ^ 57) (hbd : b.length < d) :
    ∃ N w, w.obs = (Val.struct vs).obs ∧ ∀ j, N ≤ j →
      (∀ x m, Passed m (.msg t (.struct vs)) x →
        runApi env hit d j t!"Marshal" [x] m = .ok ([.bytes (some b), .err none], m)) ∧
      runApi env hit d j t!"Unmarshal" [.bytes (some b), .iface (some (.ptr (.struct t))) (.ptr [] .uptr)] (env t).zero =
        .ok ([.err none], w) := by
  obtain ⟨w, hu, hw⟩ := C01_round_trip_partial hg t vs b hv ho hc h (by omega)
  obtain ⟨b', hb', hsz⟩ := C02_size_is_length_partial hg t _ hv ho
  rw [h] at hb'
  cases hb'
  obtain ⟨N, hN⟩ := C77_marshal (hit := hit) hd hk t _ b h (by omega) (by rw [hsz]; intro s hs; cases hs; omega) hbl
  obtain ⟨M, hM⟩ := C77_unmarshal (hit := hit) hg.wf t _ w (some b) none hb hbd (room_mono (Nat.zero_le _) (zero_room hg.wf t)) hu
  refine ⟨N + M, w, hw, fun j hj => ⟨hN j (by omega), ?_⟩⟩
  obtain ⟨m', h1, h2⟩ := hM j (by omega) [] (env t).zero (by decide) rfl
  cases h1
  exact h2

/-! ### programs -/

theorem _root_.Pb.Go.scalarKeys_of_program {D : Decls} (h : ProgramOK D) : ∀ t, ∀ g ∈ (envOf D t).fields, ScalarKeys g.codec := by
  intro t g hg
  obtain ⟨i, hi⟩ := walkStruct_ok (h t)
  have he : envOf D t = i := by simp only [envOf, hi]
  rw [he] at hg
  obtain ⟨j, f, hj, hE⟩ := (walkFields_spec _ _ _ (walkStruct_fields hi).1).1 g hg
  have hmem : f ∈ D t := List.mem_of_getElem? hj
  have hact : f.Active := by
    obtain ⟨_, h5, s, t', h6, _⟩ := hE
    exact ⟨h5, by simp [h6]⟩
  obtain ⟨s, e, n, c, z, k1, k2, k3, k4⟩ := entry_codecF hE ((h t).fields f hmem hact)
  obtain ⟨s', e', n', c', z', k1', k2', _, _, k5⟩ := (h t).fields f hmem hact
  have hv : ∀ {e z r T c}, CodecV e z r T c → ScalarKeys c := by
    intro e z r T c hc
    induction hc with
    | ptr r T zero c _ _ ih => exact ih
    | _ => trivial
  generalize f.ty = T at k4 k5
  generalize f.keyTag = kt at k4 k5
  generalize f.valTag = vt at k4 k5
  generalize g.codec = c at k4
  cases k4 with
  | value T c hcv => exact hv hcv
  | option => trivial
  | slice T zero c hcv => exact (hv hcv : ScalarKeys c)
  | map K V ke kn kp ve vn vp i kc vc kd vd _ hk1 hv1 _ _ hkc hvc =>
    cases k5 with
    | scalar _ s hs => cases hs
    | value _ hs => cases hs with | scalar _ s hs => cases hs
    | map K V ke' kn' kc' ve' vn' vc' _ a1 a2 _ _ _ _ _ hK hV =>
      obtain ⟨rfl, _, _, _⟩ := Sample.says_unique hk1 a1
      cases hK with
      | scalar s hms n1 n2 n3 n4 =>
        refine ⟨?_, hv hvc⟩
        cases hkc with
        | required _ s' hs' => exact ⟨s', .inr rfl⟩
        | bytes | msg | ptr => cases hms

/-- C77. For the struct types of a program: on every input, `Unmarshal`, run from the source, into a message of one of the types returns
an error or nil. The message may be any of its type, as long as the slices in it are not too large. Partial: as `C03_program_safe_partial`. -/
theorem C77_program_safe_partial (D : Decls) (h : ProgramSane D) (t : TypeId) (v : Val) (hv : FitsMsg (layoutOf D) t v) (b : Option Bytes)
    (hb : (b.getD []).length < 2 ^ 57) (hbd : (b.getD []).length < d) (hr : Room (2 ^ 57) v) :
    ∃ N w e, FitsMsg (layoutOf D) t w ∧ (e = none ∨ ∃ y, e = some (.decode y)) ∧ ∀ j, N ≤ j → ∀ p m, Writable p → getPath p m = .ok v →
      ∃ m', setPath w p m = .ok m' ∧
        runApi (envOf D) hit d j t!"Unmarshal" [.bytes b, .iface (some (.ptr (.struct t))) (.ptr p .uptr)] m = .ok ([errValue e], m') := by
  obtain ⟨w, e, h1, h2, h3⟩ := C03_program_safe_partial D h (b.getD []) t v hv
  obtain ⟨N, hN⟩ := C77_unmarshal (hit := hit) (wf_of_sane h).2.1 t v w b e hb hbd hr h1
  exact ⟨N, w, e, h2, h3, hN⟩

/-- C77. For the struct types of a program: what `Marshal`, run from the source, returns is what the declarations say, and has the
length that `Size` returns; `Unmarshal` reads it into a new message, equal to the original. Partial: as `C01_program_partial`. -/
theorem C77_program_partial (D : Decls) (h : ProgramOK D) (hm : MapsAlike D) (hd : d ≤ 2 ^ 62) (t : TypeId) (vs : List Val)
    (hv : FitsMsg (layoutOf D) t (.struct vs)) (hc : Canon (envOf D) (.msg t) (.ptr (.struct vs))) (hbl : Go.Below d (.struct vs))
    (hl : ∀ n, size (envOf D) (.msg t (.struct vs)) = .ok n → n < 2 ^ 57 ∧ n < d) :
    ∃ N b w, WireMsg D (D t) vs b ∧ w.obs = (Val.struct vs).obs ∧ ∀ j, N ≤ j →
      (∀ x m, Passed m (.msg t (.struct vs)) x →
        runApi (envOf D) hit d j t!"Size" [x] m = .ok ([.int (BitVec.ofNat 64 b.length)], m) ∧
        runApi (envOf D) hit d j t!"Marshal" [x] m = .ok ([.bytes (some b), .err none], m)) ∧
      runApi (envOf D) hit d j t!"Unmarshal" [.bytes (some b), .iface (some (.ptr (.struct t))) (.ptr [] .uptr)] (zeroStruct (D t)) =
        .ok ([.err none], w) := by
  have hg := good_of_program h
  obtain ⟨b, h1, h2⟩ := C02_program_partial D h hm t _ hv
  have hlb := hl _ h2
  obtain ⟨N, hN⟩ := C77_size (env := envOf D) (hit := hit) hd t _ _ h2 (by omega) hbl
  obtain ⟨M, w, hw, hM⟩ := C77_round_trip_partial (hit := hit) hg hd (scalarKeys_of_program h) t vs b hv
    (encOK_of_types hg (mapsSized_of_alike h hm) t _ hv) hc hbl h1 hlb.1 hlb.2
  refine ⟨N + M, b, w, C11_program_partial D h hm t vs b hv h1 (by omega), hw, fun j hj => ⟨fun x m hx => ⟨hN j (by omega) x m hx,
    (hM j (by omega)).1 x m hx⟩, ?_⟩⟩
  have := (hM j (by omega)).2
  rwa [hg.wf.zero t, ← zeroStruct_layout] at this

/-! ### cases -/

/-- What is passed as an argument: nil, a number, a pointer to a number, a nil pointer to a message and a pointer to the message in field 1
of a struct. -/
example : Passed (.struct [.nilp, .ptr Sample.node]) .nilIface (.iface none (.null .uptr)) ∧
    Passed (.struct [.nilp, .ptr Sample.node]) .nonPtr (.iface (some (.other 2#64)) (.ptr [] .uptr)) ∧
    Passed (.struct [.nilp, .ptr Sample.node]) (.ptrOther false) (.iface (some (.ptr (.other 2#64))) (.ptr [] .uptr)) ∧
    Passed (.struct [.nilp, .ptr Sample.node]) (.nilMsg 0) (.iface (some (.ptr (.struct 0))) (.null .uptr)) ∧
    Passed (.struct [.nilp, .ptr Sample.node]) (.msg 0 Sample.node) (.iface (some (.ptr (.struct 0))) (.ptr [.slot 1, .deref] .uptr)) :=
  ⟨rfl, ⟨_, _, rfl, by decide, .inr ⟨_, rfl⟩⟩, ⟨_, _, rfl, by decide, ⟨_, rfl⟩⟩, rfl, ⟨_, rfl, by decide, rfl⟩⟩

/-- A number is passed to `Marshal`, and to `Unmarshal` with bytes and without. -/
example (j : Nat) (m : Val) :
    runApi Sample.env hit d j t!"Marshal" [.iface (some (.other 2#64)) (.ptr [] .uptr)] m = .ok ([.bytes none, .apierr .notPointer], m) ∧
    runApi Sample.env hit d j t!"Unmarshal" [.bytes (some [8#8, 1#8]), .iface (some (.other 2#64)) (.ptr [] .uptr)] m =
      .ok ([.apierr .invalidUnmarshal], m) ∧
    runApi Sample.env hit d j t!"Unmarshal" [.bytes none, .iface (some (.other 2#64)) (.ptr [] .uptr)] m = .ok ([.err none], m) := by
  have hx : Passed m .nonPtr (.iface (some (.other 2#64)) (.ptr [] .uptr)) := ⟨_, _, rfl, by decide, .inr ⟨_, rfl⟩⟩
  have h1 := C77_misuse (env := Sample.env) (hit := hit) (d := d) .nonPtr (by simp) _ m hx (some [8#8, 1#8]) (by decide) j
  have h2 := C77_misuse (env := Sample.env) (hit := hit) (d := d) .nonPtr (by simp) _ m hx none (by decide) j
  exact ⟨h1.2.1, h1.2.2, h2.2.2⟩

/-- `Node` with a map, and a nested message cut off. -/
example : ∃ vs N b w, Sample.plain = .struct vs ∧ w.obs = Sample.plain.obs ∧ b.length = 34 ∧ ∀ j, N ≤ j →
    runApi Sample.env hit 100 j t!"Marshal" [.iface (some (.ptr (.struct 0))) (.ptr [] .uptr)] Sample.plain =
      .ok ([.bytes (some b), .err none], Sample.plain) ∧
    runApi Sample.env hit 100 j t!"Unmarshal" [.bytes (some b), .iface (some (.ptr (.struct 0))) (.ptr [] .uptr)] (Sample.env 0).zero =
      .ok ([.err none], w) := by
  obtain ⟨N, w, hw, h⟩ := C77_round_trip_partial (hit := hit) (d := 100) Sample.good (by decide) sample_scalarKeys 0 _ _ Sample.plain_fits
    (encOK_of_types Sample.good Sample.mapsSized 0 _ Sample.plain_fits) Sample.plain_canon
    (by simp [Go.Below, Belows, BelowMap, Sample.env, Sample.layout, Shape.zero]) rfl (by decide) (by decide)
  exact ⟨_, N, _, w, rfl, hw, rfl, fun j hj => ⟨(h j hj).1 _ _ ⟨[], rfl, by decide, rfl⟩, (h j hj).2⟩⟩

example : ∃ N, ∀ j, N ≤ j → ∃ w,
    runApi Sample.env hit 100 j t!"Unmarshal" [.bytes (some [26#8, 1#8, 8#8]), .iface (some (.ptr (.struct 0))) (.ptr [] .uptr)] (Sample.env 0).zero =
      .ok ([.err (some (.field 3 2 (.field 1 0 .unexpectedEOF)))], w) := by
  obtain ⟨N, hN⟩ := C77_unmarshal (hit := hit) (d := 100) Sample.good.wf 0 (Sample.env 0).zero _ (some [26#8, 1#8, 8#8]) _ (by decide) (by decide)
    (room_mono (Nat.zero_le _) (zero_room Sample.good.wf 0)) rfl
  refine ⟨N, fun j hj => ?_⟩
  obtain ⟨m', _, h⟩ := hN j hj [] (Sample.env 0).zero (by decide) rfl
  exact ⟨m', h⟩

/-- The declarations of `Node`, and `Node` with a map. -/
example : ∃ vs, Sample.plain = .struct vs ∧ ProgramOK Sample.decls ∧ MapsAlike Sample.decls ∧
    FitsMsg (layoutOf Sample.decls) 0 (.struct vs) ∧ Canon (envOf Sample.decls) (.msg 0) (.ptr (.struct vs)) ∧ Go.Below 100 (.struct vs) ∧
    Room (2 ^ 57) (.struct vs) ∧ size (envOf Sample.decls) (.msg 0 (.struct vs)) = .ok 34 := by
  rw [Sample.layoutOf_decls, Sample.envOf_decls]
  exact ⟨_, rfl, Sample.programOK, Sample.mapsAlike, Sample.plain_fits, Sample.plain_canon,
    by simp [Go.Below, Belows, BelowMap, Sample.env, Sample.layout, Shape.zero],
    by simp [Room, Rooms, Sample.env, Sample.layout, Shape.zero], rfl⟩

end Pb.Props
