import Verif.Proofs.SourceKnot
import Verif.Proofs.SourceMapDec
import Verif.Proofs.SourceRoom
/-
The codecs calling each other: decode.
-/
namespace Pb.Go
open Tree

set_option linter.unusedSimpArgs false

/-! ### decoding does not make slices smaller -/

theorem keeps_scalar (s : Scalar) : Keeps (decodeScalar s) := by
  intro b v r h hs
  by_cases hb : s = .bool ∧ b = []
  · obtain ⟨rfl, rfl⟩ := hb
    cases h; exact hs
  · cases v with
    | b8 _ => simp only [Small]
    | w32 _ => simp only [Small]
    | w64 _ => simp only [Small]
    | str _ => simp only [Small]
    | bytes _ => simp only [Small]
    | nilp => simp only [Small]
    | map _ _ => simp only [Small]
    | _ =>
      exfalso
      cases s with
      | bool =>
        cases b with
        | nil => exact hb ⟨rfl, rfl⟩
        | cons c b => cases h
      | string =>
        simp only [decodeScalar] at h
        cases hd : decodeVarlen b with
        | error e => rw [hd] at h; cases h
        | ok x =>
          obtain ⟨a, n, e⟩ := x
          rw [hd] at h
          by_cases hn : n = 0
          · subst hn; cases h
          · simp only [bind, Except.bind, if_neg hn] at h; cases h
      | _ => cases h

theorem keeps_option (s : Scalar) : Keeps (decodeOption s) := by
  intro b v r h hs
  cases v with
  | opt o w =>
    simp only [decodeOption] at h
    cases hd : decodeScalar s b w with
    | error e => rw [hd] at h; cases h
    | ok q =>
      rw [hd] at h
      cases h
      simp only [Small]
      refine keeps_scalar s b w q hd ?_
      cases q <;> simpa only [DRes.wrap, DRes.val, Small] using hs
  | _ => cases h

theorem keeps_bytes : Keeps decodeBytes := by
  intro b v r h hs
  simp only [decodeBytes] at h
  cases hd : decodeVarlen b with
  | error e => rw [hd] at h; cases h
  | ok x =>
    rw [hd] at h
    cases v with
    | bytes _ => simp only [Small]
    | _ => cases h

theorem wrap_small {r : DRes} (hs : Small (r.wrap .ptr).val) : Small r.val := by
  cases r <;> simpa only [DRes.wrap, DRes.val, Small] using hs

theorem smalls_append {a b : List Val} : Smalls (a ++ b) ↔ Smalls a ∧ Smalls b := by
  simp only [smalls_iff, List.mem_append]
  exact ⟨fun h => ⟨fun v hv => h v (.inl hv), fun v hv => h v (.inr hv)⟩, fun h v hv => hv.elim (h.1 v) (h.2 v)⟩

/-- The result of decoding one more element. -/
theorem slice_small {isNil isNil' : Bool} {es sp sp' : List Val} {slot z w : Val} (hg : growIfFull z es sp = slot :: sp') (hw : Small w → Small slot)
    (h : Small (.slice isNil' (es ++ [w]) sp') ∨ Small (.slice isNil' es (w :: sp'))) :
    Small (.slice isNil es sp) ∧ Small w := by
  have h' : es.length + 1 + sp'.length < 2 ^ 60 ∧ Smalls es ∧ Small w ∧ Smalls sp' := by
    rcases h with h | h
    · simp only [Small, List.length_append, List.length_cons, List.length_nil, smalls_append, Smalls] at h
      exact ⟨by omega, h.2.1.1, h.2.1.2.1, h.2.2⟩
    · simp only [Small, List.length_cons, Smalls] at h
      exact ⟨by omega, h.2.1, h.2.2.1, h.2.2.2⟩
  obtain ⟨h1, h2, h3, h4⟩ := h'
  refine ⟨?_, h3⟩
  simp only [Small]
  by_cases hs : sp = []
  · subst hs
    exact ⟨by simp only [List.length_nil]; omega, h2, by simp only [Smalls]⟩
  · have : sp = slot :: sp' := by simpa only [growIfFull, if_neg hs] using hg
    rw [this]
    exact ⟨by simp only [List.length_cons]; omega, h2, by simp only [Smalls]; exact ⟨hw h3, h4⟩⟩

theorem keeps_codec {zeros : TypeId → Val} {rec : TypeId → Bytes → Val → Except Fault DRes} (hrec : ∀ t, Keeps (rec t)) :
    ∀ c, Keeps (codecDecode zeros rec c) := by
  intro c
  induction c with
  | normal s => exact keeps_scalar s
  | required s => exact keeps_scalar s
  | option s => exact keeps_option s
  | bytes => exact keeps_bytes
  | ptr z c ih =>
    intro b v r h hs
    simp only [codecDecode] at h
    cases v with
    | nilp => simp only [Small]
    | ptr w =>
      cases hd : codecDecode zeros rec c b w with
      | error e => simp only [hd] at h; cases h
      | ok q => simp only [hd] at h; cases h; simp only [Small]; exact ih b w q hd (wrap_small hs)
    | _ => cases h
  | msg t =>
    intro b v r h hs
    simp only [codecDecode] at h
    cases v with
    | nilp => simp only [Small]
    | ptr w =>
      simp only [bind, Except.bind, pure, Except.pure] at h
      rcases hdv : decodeVarint b with ⟨x, n, e⟩
      rw [hdv] at h
      cases e with
      | some e => simp only at h; cases h; exact hs
      | none =>
        simp only at h
        cases hg : goFrom b n with
        | error e => simp only [hg] at h; cases h
        | ok b' =>
          simp only [hg] at h
          cases hd : rec t b' w with
          | error e => simp only [hd] at h; cases h
          | ok q =>
            simp only [hd] at h
            simp only [Small]
            refine hrec t b' w q hd ?_
            cases q <;> cases h <;> simpa only [DRes.val, Small] using hs
    | _ => simp only [bind, Except.bind] at h; cases h
  | slice z c ih =>
    intro b v r h hs
    simp only [codecDecode] at h
    cases v with
    | slice isNil es sp =>
      simp only at h
      cases hg : growIfFull z es sp with
      | nil => simp only [hg] at h; cases h
      | cons slot sp' =>
        simp only [hg] at h
        cases hd : codecDecode zeros rec c b slot with
        | error e => simp only [hd] at h; cases h
        | ok q =>
          simp only [hd, bind, Except.bind, pure, Except.pure] at h
          cases q with
          | ok w n => cases h; exact (slice_small hg (fun hw => ih b slot _ hd hw) (.inl hs)).1
          | err w e => cases h; exact (slice_small hg (fun hw => ih b slot _ hd hw) (.inr hs)).1
    | _ => cases h
  | map i kc vc kd vd _ _ _ _ =>
    intro b v r h hs
    simp only [codecDecode] at h
    cases v with
    | map _ _ => simp only [Small]
    | _ => cases h

theorem find_dec {zeros : TypeId → Val} {rec : TypeId → Bytes → Val → Except Fault DRes} {fs : List Field} {n : Nat} {f : DField}
    (h : fieldIndex (dfields zeros rec fs) n = some f) : ∃ g ∈ fs, f.dec = codecDecode zeros rec g.codec := by
  rw [fieldIndex_dfields] at h
  obtain ⟨g, hg, rfl⟩ := Option.map_eq_some_iff.1 h
  exact ⟨g, List.mem_reverse.1 (List.mem_of_find?_eq_some hg), rfl⟩

theorem keeps_msg (env : Env) : ∀ D t, Keeps (decodeMsg env D t) := by
  intro D
  induction D with
  | zero => intro t b v r h; simp only [decodeMsg] at h; cases h
  | succ D ih =>
    intro t b v r h hs
    rw [decodeMsg] at h
    cases v with
    | struct vs =>
      simp only [structDecode] at h
      refine loop_keeps ?_ _ _ _ _ h hs
      intro n f hf
      obtain ⟨g, _, hg⟩ := find_dec hf
      rw [hg]
      exact keeps_codec ih g.codec
    | _ => cases h

/-! ### decode -/

/-- The decode function of the codec, run, gives what the model says (messages inside at most `D` deep). -/
def DecRuns (env : Env) (hit : List V → Val → Bool) (d D : Nat) (c : Codec) : Prop :=
  ∃ N, ∀ j, N ≤ j → ∀ (p : List Step) (v : Val) (b : Bytes) (r : DRes) (m : Val), Writable p → getPath p m = .ok v → b.length < 2 ^ 57 →
    b.length < d → codecDecode (fun t => (env t).zero) (decodeMsg env D) c b v = .ok r → Small r.val →
    decodeOut p m (.ok r) (codecs env hit d j (some (.codec c)) t!"decode" [.bytes (some b), .ptr p .uptr] m)

def DecMsgRuns (env : Env) (hit : List V → Val → Bool) (d D : Nat) (t : TypeId) : Prop :=
  ∃ N, ∀ j, N ≤ j → ∀ (p : List Step) (v : Val) (b : Bytes) (r : DRes) (m : Val), Writable p → getPath p m = .ok v → b.length < 2 ^ 57 →
    b.length < d → decodeMsg env D t b v = .ok r → Small r.val →
    decodeOut p m (.ok r) (invoke library (codecs env hit d j) d 6 (some (.info (env t).fields)) t!"decode" [.bytes (some b), .ptr p .uptr] m)

theorem scalar_decode {env : Env} {hit : List V → Val → Bool} {d j : Nat} {p : List Step} {v m : Val} {zeros : TypeId → Val}
    {rec : TypeId → Bytes → Val → Except Fault DRes} {c : Codec} {b : Bytes} {r : DRes}
    (hc : (∃ s, c = .normal s ∨ c = .required s ∨ c = .option s) ∨ c = .bytes) (hw : Writable p) (hp : getPath p m = .ok v) (hb : b.length < 2 ^ 60)
    (h : codecDecode zeros rec c b v = .ok r) :
    decodeOut p m (.ok r) (codecs env hit d (j + 1) (some (.codec c)) t!"decode" [.bytes (some b), .ptr p .uptr] m) := by
  rw [codecs_decode]
  rcases hc with ⟨s, rfl | rfl | rfl⟩ | rfl
  · simp only [codecDecode] at h
    rw [← h]
    exact (scalar_decode_runs s b hb hw hp).1
  · simp only [codecDecode] at h
    rw [← h]
    exact (scalar_decode_runs s b hb hw hp).1
  · simp only [codecDecode] at h
    rw [← h]
    exact (scalar_decode_runs s b hb hw hp).2
  · simp only [codecDecode] at h
    rw [← h]
    exact run_decodeBytes 3 b hb hw hp

/-- What a decode function returns, with the memory it leaves behind. -/
theorem decodeOut_iff {p : List Step} {m : Val} {r : DRes} {out : Except Fault (List V × Val)} {m' : Val} (hm : setPath r.val p m = .ok m') :
    decodeOut p m (.ok r) out ↔ ∃ i e, out = .ok ([.int i, .err e], m') ∧
      (match (generalizing := false) r with
      | .ok _ n => i = BitVec.ofNat 64 n ∧ e = none
      | .err _ x => e = some x) := by
  cases r with
  | ok v n =>
    simp only [DRes.val] at hm
    simp only [decodeOut, hm, Except.map]
    constructor
    · rintro rfl; exact ⟨_, _, rfl, rfl, rfl⟩
    · rintro ⟨i, e, rfl, rfl, rfl⟩; rfl
  | err v x =>
    simp only [DRes.val] at hm
    simp only [decodeOut, hm, Except.map]
    constructor
    · rintro ⟨n, rfl⟩; exact ⟨n, _, rfl, rfl⟩
    · rintro ⟨i, e, rfl, rfl⟩; exact ⟨i, rfl⟩

theorem wrap_val {r : DRes} : (r.wrap .ptr).val = .ptr r.val := by cases r <;> rfl

section
variable {env : Env} {hit : List V → Val → Bool} {C : Calls} {d : Nat} {args : List V} {m z : Val} {c : Codec}

theorem go_ptr : codecDecodeGo env hit C d args m (.ptr z c) = runText C d pointerDecodeGo [(t!"t", .rtype z), (t!"c", .codec c)] args m := rfl
theorem go_msg {t : TypeId} : codecDecodeGo env hit C d args m (.msg t) = runText C d messageDecodeGo (msgVars (env t).fields (env t).zero) args m := rfl
theorem go_slice : codecDecodeGo env hit C d args m (.slice z c) = runText C d sliceDecodeGo ((t!"elemType", .rtype z) :: sliceOuter c) args m := rfl
set_option maxRecDepth 20000 in
theorem go_map {i : MapInfo} {kc vc kd vd : Codec} {b : V} {p : List Step} {t : Ty} :
    codecDecodeGo env hit C d [b, .ptr p t] m (.map i kc vc kd vd) =
      match runText C d mapDecodeGo (mapDecodeOuter i kd vd (hit [b, .ptr p t] m) [.slot 1]) [b, .ptr (.slot 0 :: p) t]
          (.struct [m, .struct [i.kzero, i.vzero]]) with
      | .ok (r, .struct [m, _]) => .ok (r, m)
      | .ok _ => .error .confused
      | .error e => .error e := rfl
end

theorem codecs_runtime {env : Env} {hit : List V → Val → Bool} {d j : Nat} {n : Text} {args : List V} {m : Val} :
    codecs env hit d (j + 1) none n args m = runtimeCall n args m := by
  rw [codecs]

theorem dec_codec {env : Env} {hit : List V → Val → Bool} {d D : Nat} (hz : ∀ t, Room 0 (env t).zero)
    (hf : ∀ t, ∀ f ∈ (env t).fields, Zeros f.codec) (hrec : ∀ t, DecMsgRuns env hit d D t) : ∀ c, Zeros c → DecRuns env hit d D c := by
  intro c
  induction c with
  | normal s =>
    intro _
    refine ⟨1, fun j hj p v b r m hw hp hb _ h _ => ?_⟩
    obtain ⟨j, rfl⟩ : ∃ i, j = i + 1 := ⟨j - 1, by omega⟩
    exact scalar_decode (.inl ⟨s, .inl rfl⟩) hw hp (by omega) h
  | required s =>
    intro _
    refine ⟨1, fun j hj p v b r m hw hp hb _ h _ => ?_⟩
    obtain ⟨j, rfl⟩ : ∃ i, j = i + 1 := ⟨j - 1, by omega⟩
    exact scalar_decode (.inl ⟨s, .inr (.inl rfl)⟩) hw hp (by omega) h
  | option s =>
    intro _
    refine ⟨1, fun j hj p v b r m hw hp hb _ h _ => ?_⟩
    obtain ⟨j, rfl⟩ : ∃ i, j = i + 1 := ⟨j - 1, by omega⟩
    exact scalar_decode (.inl ⟨s, .inr (.inr rfl)⟩) hw hp (by omega) h
  | bytes =>
    intro _
    refine ⟨1, fun j hj p v b r m hw hp hb _ h _ => ?_⟩
    obtain ⟨j, rfl⟩ : ∃ i, j = i + 1 := ⟨j - 1, by omega⟩
    exact scalar_decode (.inr rfl) hw hp (by omega) h
  | ptr z c ih =>
    intro hn
    obtain ⟨N, ih⟩ := ih hn.2
    refine ⟨N + 1, fun j hj p v b r m hw hp hb hd h hs => ?_⟩
    obtain ⟨j, rfl⟩ : ∃ i, j = i + 1 := ⟨j - 1, by omega⟩
    rw [codecs_decode]
    rw [go_ptr]
    simp only [runText, parse_pointerDecode]
    simp only [codecDecode] at h
    have hw' : Writable (p ++ [.deref]) := hw.snoc rfl
    cases v with
    | nilp =>
      cases hq : codecDecode (fun t => (env t).zero) (decodeMsg env D) c b z with
      | error e => simp only [hq] at h; cases h
      | ok q =>
        simp only [hq] at h
        cases h
        obtain ⟨m1, hm1⟩ := setPath_ok (x := .ptr z) hw hp
        obtain ⟨hg1, hs1⟩ := setPath_get hm1
        obtain ⟨m2, hm2⟩ := setPath_ok (x := .ptr q.val) hw hp
        have hgd : getPath (p ++ [.deref]) m1 = .ok z := by rw [getPath_append hg1]; rfl
        have hsd : setPath q.val (p ++ [.deref]) m1 = .ok m2 := by
          rw [setPath_append (y := .ptr q.val) rfl hg1, hs1, hm2]
        obtain ⟨i, e, ho, hr⟩ := (decodeOut_iff hsd).1 (ih j (by omega) _ z b q m1 hw' hgd hb hd hq (wrap_small hs))
        refine (decodeOut_iff (m' := m2) (by rw [wrap_val, hm2])).2 ⟨i, e, run_pointerDecode_nil 5 hp hm1 ho, ?_⟩
        cases q <;> exact hr
    | ptr w =>
      cases hq : codecDecode (fun t => (env t).zero) (decodeMsg env D) c b w with
      | error e => simp only [hq] at h; cases h
      | ok q =>
        simp only [hq] at h
        cases h
        obtain ⟨m2, hm2⟩ := setPath_ok (x := .ptr q.val) hw hp
        have hgd : getPath (p ++ [.deref]) m = .ok w := by rw [getPath_append hp]; rfl
        have hsd : setPath q.val (p ++ [.deref]) m = .ok m2 := by
          rw [setPath_append (y := .ptr q.val) rfl hp, hm2]
        obtain ⟨i, e, ho, hr⟩ := (decodeOut_iff hsd).1 (ih j (by omega) _ w b q m hw' hgd hb hd hq (wrap_small hs))
        refine (decodeOut_iff (m' := m2) (by rw [wrap_val, hm2])).2 ⟨i, e, run_pointerDecode 5 hp ho, ?_⟩
        cases q <;> exact hr
    | _ => cases h
  | msg t =>
    intro _
    obtain ⟨N, ih⟩ := hrec t
    refine ⟨N + 1, fun j hj p v b r m hw hp hb hd h hs => ?_⟩
    obtain ⟨j, rfl⟩ : ∃ i, j = i + 1 := ⟨j - 1, by omega⟩
    rw [codecs_decode]
    rw [go_msg]
    simp only [runText, parse_messageDecode]
    have hw' : Writable (p ++ [.deref]) := hw.snoc rfl
    -- the pointer is not nil afterwards
    have hmade : ∃ w m1, Made (env t).zero p m m1 ∧ getPath p m1 = .ok (.ptr w) ∧ (∀ y, setPath y p m1 = setPath y p m) ∧
        (do
          let (_, n, err) := decodeVarint b
          match err with
          | some e => return .err (.ptr w) e
          | none =>
            match ← decodeMsg env D t (← goFrom b n) w with
            | .ok v l => return .ok (.ptr v) (n + l)
            | .err v e => return .err (.ptr v) e) = Except.ok r := by
      simp only [codecDecode] at h
      cases v with
      | nilp =>
        obtain ⟨m1, hm1⟩ := setPath_ok (x := .ptr (env t).zero) hw hp
        obtain ⟨hg1, hs1⟩ := setPath_get hm1
        exact ⟨(env t).zero, m1, .inl ⟨hp, hm1⟩, hg1, hs1, h⟩
      | ptr w => exact ⟨w, m, .inr ⟨rfl, w, hp⟩, hp, fun _ => rfl, h⟩
      | _ => simp only [bind, Except.bind] at h; cases h
    obtain ⟨w, m1, hm1, hg1, hs1, h⟩ := hmade
    have hgd : getPath (p ++ [.deref]) m1 = .ok w := by rw [getPath_append hg1]; rfl
    rcases hdv : decodeVarint b with ⟨x, n, err⟩
    rw [hdv] at h
    cases err with
    | some e =>
      simp only [pure, Except.pure] at h
      cases h
      have hm : setPath (DRes.err (.ptr w) e).val p m = .ok m1 := by
        rw [← hs1]; exact setPath_same hw hg1
      exact (decodeOut_iff hm).2 ⟨_, _, run_messageDecode_err 5 (by omega) hm1 hdv, rfl⟩
    | none =>
      have hle := decodeVarint_le hdv
      have hgo : goFrom b n = .ok (b.drop n) := by simp only [goFrom, if_pos hle]
      simp only [hgo, bind, Except.bind] at h
      cases hq : decodeMsg env D t (b.drop n) w with
      | error e => simp only [hq] at h; cases h
      | ok q =>
        simp only [hq] at h
        have hrv : r.val = .ptr q.val ∧ (match (generalizing := false) q with
            | .ok _ l => r = .ok (.ptr q.val) (n + l)
            | .err _ e => r = .err (.ptr q.val) e) := by
          cases q <;> cases h <;> exact ⟨rfl, rfl⟩
        obtain ⟨m2, hm2⟩ := setPath_ok (x := .ptr q.val) hw hp
        have hsd : setPath q.val (p ++ [.deref]) m1 = .ok m2 := by
          rw [setPath_append (y := .ptr q.val) rfl hg1, hs1, hm2]
        have hsq : Small q.val := by rw [hrv.1] at hs; simpa only [Small] using hs
        have hdl : (b.drop n).length ≤ b.length := by simp
        obtain ⟨i, e, ho, hr⟩ := (decodeOut_iff hsd).1 (ih j (by omega) _ w (b.drop n) q m1 hw' hgd (by omega) (by omega) hq hsq)
        refine (decodeOut_iff (m' := m2) (by rw [hrv.1, hm2])).2 ⟨_, e, run_messageDecode 5 (by omega) hm1 hdv ho, ?_⟩
        cases q with
        | ok v l =>
          simp only at hrv hr
          obtain ⟨_, rfl⟩ := hrv
          exact ⟨by rw [hr.1, BitVec.ofNat_add], hr.2⟩
        | err v x =>
          simp only at hrv hr
          obtain ⟨_, rfl⟩ := hrv
          exact hr
  | slice z c ih =>
    intro hn
    obtain ⟨N, ih⟩ := ih hn.2
    refine ⟨N + 1, fun j hj p v b r m hw hp hb hd h hs => ?_⟩
    obtain ⟨j, rfl⟩ : ∃ i, j = i + 1 := ⟨j - 1, by omega⟩
    rw [codecs_decode]
    rw [go_slice]
    simp only [runText, parse_sliceDecode]
    simp only [codecDecode] at h
    cases v with
    | slice isNil es sp =>
      simp only at h
      cases hg : growIfFull z es sp with
      | nil => simp only [hg] at h; cases h
      | cons slot sp' =>
        simp only [hg] at h
        cases hq : codecDecode (fun t => (env t).zero) (decodeMsg env D) c b slot with
        | error e => simp only [hq] at h; cases h
        | ok q =>
          simp only [hq, bind, Except.bind, pure, Except.pure] at h
          have hkeep := fun hw => keeps_codec (zeros := fun t => (env t).zero) (keeps_msg env D) c b slot q hq hw
          have hsm : Small (.slice isNil es sp) ∧ Small q.val := by
            cases q with
            | ok w n => cases h; exact slice_small hg hkeep (.inl hs)
            | err w e => cases h; exact slice_small hg hkeep (.inr hs)
          have hl : es.length + sp.length < 2 ^ 60 := by
            have := hsm.1
            simp only [Small] at this
            exact this.1
          obtain ⟨m1, hm1⟩ := setPath_ok (x := .slice (if sp = [] then false else isNil) es (slot :: sp')) hw hp
          obtain ⟨hg1, hs1⟩ := setPath_get hm1
          obtain ⟨m2, hm2⟩ := setPath_ok (x := .slice (if sp = [] then false else isNil) es (q.val :: sp')) hw hg1
          obtain ⟨hg2, hs2⟩ := setPath_get hm2
          have hw' : Writable (p ++ [.elem es.length]) := hw.snoc rfl
          have hge : getPath (p ++ [.elem es.length]) m1 = .ok slot := by
            rw [getPath_append hg1]
            simp [getPath]
          have hse : setPath q.val (p ++ [.elem es.length]) m1 = .ok m2 := by
            rw [setPath_append (y := .slice (if sp = [] then false else isNil) es (q.val :: sp')) (by simp [setPath]) hg1, hm2]
          obtain ⟨i, e, ho, hr⟩ := (decodeOut_iff hse).1 (ih j (by omega) _ slot b q m1 hw' hge hb hd hq hsm.2)
          cases q with
          | ok w n =>
            cases h
            obtain ⟨rfl, rfl⟩ := hr
            obtain ⟨m3, hm3⟩ := setPath_ok (x := .slice (if sp = [] then false else isNil) (es ++ [w]) sp') hw hg2
            refine (decodeOut_iff (m' := m3) ?_).2 ⟨_, _, run_sliceDecode 5 hw hp hl hg hm1 hm2 ho hm3, rfl, rfl⟩
            simp only [DRes.val]
            rw [← hs1, ← hs2, hm3]
          | err w x =>
            cases h
            subst hr
            refine (decodeOut_iff (m' := m2) ?_).2 ⟨_, _, run_sliceDecode 5 hw hp hl hg hm1 hm2 ho rfl, rfl⟩
            simp only [DRes.val] at hm2 ⊢
            rw [← hs1, hm2]
    | _ => cases h
  | map i kc vc kd vd _ _ ihk ihv =>
    rintro ⟨hkr, hvr, hkz, hvz, hkd, hvd⟩
    obtain ⟨Nk, ihk⟩ := ihk hkd
    obtain ⟨Nv, ihv⟩ := ihv hvd
    refine ⟨Nk + Nv + 2, fun j hj p v b r m hw hp hb hd h hs => ?_⟩
    obtain ⟨j, rfl⟩ : ∃ i, j = i + 2 := ⟨j - 2, by omega⟩
    rw [codecs_decode]
    rw [go_map]
    simp only [runText, parse_mapDecode]
    generalize hit [.bytes (some b), .ptr p .uptr] m = hh
    simp only [codecDecode] at h
    cases v with
    | map isNil es =>
      simp only at h
      -- the map is not nil afterwards
      obtain ⟨m1, hm1⟩ := setPath_ok (x := .map false es) hw hp
      obtain ⟨hg1, hs1⟩ := setPath_get hm1
      have hmade : MadeMap (.slot 0 :: p) es (.struct [m, .struct [i.kzero, i.vzero]]) (.struct [m1, .struct [i.kzero, i.vzero]]) := by
        cases isNil with
        | true => exact .inl ⟨hp, by simp only [setPath, List.getElem?_cons_zero, hm1, List.set_cons_zero]⟩
        | false =>
          rw [setPath_same hw hp] at hm1
          cases hm1
          exact .inr ⟨rfl, hp⟩
      have hX : ∀ args m, codecs env hit d (j + 1) none t!"MakeMap" args m = .ok ([.newmap], m) := fun _ _ => by
        rw [codecs_runtime]
        unfold runtimeCall
        rw [if_pos rfl]
      by_cases hne : b = []
      · subst hne
        rw [if_pos rfl] at h
        cases h
        rw [run_mapDecode_empty 5 hX hmade]
        exact (decodeOut_iff (r := .ok (.map false es) 0) (m' := m1) hm1).2 ⟨_, _, rfl, rfl, rfl⟩
      · rw [if_neg hne] at h
        rcases hdv : decodeVarint b with ⟨x, n, err⟩
        rw [hdv] at h
        cases err with
        | some e =>
          cases h
          rw [run_mapDecode_err 5 (by omega) hne hX hmade hdv]
          exact (decodeOut_iff (r := .err (.map false es) _) (m' := m1) hm1).2 ⟨_, _, rfl, rfl⟩
        | none =>
          have hle := decodeVarint_le hdv
          have hgo : goFrom b n = .ok (b.drop n) := by simp only [goFrom, if_pos hle]
          simp only [hgo, bind, Except.bind, pure, Except.pure] at h
          have hent : [{ num := wtNumber i.eKey, wt := wtType i.eKey, offset := 0, dec := codecDecode (fun t => (env t).zero) (decodeMsg env D) kd },
              { num := wtNumber i.eVal, wt := wtType i.eVal, offset := 1, dec := codecDecode (fun t => (env t).zero) (decodeMsg env D) vd }]
              = dfields (fun t => (env t).zero) (decodeMsg env D) (entryFields i kd vd) := rfl
          rw [hent] at h
          have hzf : ∀ f ∈ entryFields i kd vd, Zeros f.codec := by
            intro f hf
            simp only [entryFields, List.mem_cons, List.not_mem_nil, or_false] at hf
            rcases hf with rfl | rfl
            · exact hkd
            · exact hvd
          have hdl : (b.drop n).length ≤ b.length := by simp
          cases hq : structDecode (dfields (fun t => (env t).zero) (decodeMsg env D) (entryFields i kd vd)) (b.drop n) (.struct [i.kzero, i.vzero]) with
          | error e => simp only [hq] at h; cases h
          | ok q =>
            simp only [hq] at h
            -- the entry
            have hbd := bounded_msg env D
            have hroom := grows_fields hz hbd (grows_msg hz hf D) hzf (b.drop n) _ 0 q hq (by simp only [Room, Rooms]; exact ⟨hkr, hvr, trivial⟩)
            have hlen : ∀ v' l, q = .ok v' l → l ≤ b.length := by
              rintro v' l rfl
              rw [structDecode_eq] at hq
              · cases hr : run (fieldIndex (dfields (fun t => (env t).zero) (decodeMsg env D) (entryFields i kd vd))) (b.drop n) [i.kzero, i.vzero] with
                | error e => simp [hr, toDRes] at hq
                | ok r =>
                  obtain ⟨vs, e⟩ := r
                  rw [hr] at hq
                  cases e <;> simp [toDRes] at hq
                  omega
              · intro k f hf
                rw [fieldIndex_dfields] at hf
                simp at hf
                obtain ⟨g, _, rfl⟩ := hf
                exact bounded_codec _ _ hbd _
            have hsq : Small q.val := by
              cases q with
              | ok v' l =>
                have := hlen v' l rfl
                exact room_small (by omega) hroom
              | err v' e =>
                refine room_small ?_ hroom
                omega
            have hw1 : Writable [Step.slot 1] := by decide
            have hrun := run_decode (X := codecs env hit d (j + 1)) (d := d) 3 (p := [.slot 1]) (m := .struct [m1, .struct [i.kzero, i.vzero]])
              (show (b.drop n).length < 2 ^ 60 by omega) (show (b.drop n).length < d by omega) hw1 rfl
              (fun f _ => bounded_codec _ _ hbd f.codec) (fun f _ => keeps_codec (keeps_msg env D) f.codec)
              (fun f hf data v m r hl hp h hs => by
                simp only [entryFields, List.mem_cons, List.not_mem_nil, or_false] at hf
                rcases hf with rfl | rfl
                · exact ihk (j + 1) (by omega) _ v data r m (hw1.snoc rfl) hp (by omega) (by omega) h hs
                · exact ihv (j + 1) (by omega) _ v data r m (hw1.snoc rfl) hp (by omega) (by omega) h hs) hq hsq
            obtain ⟨i', e, ho, hr⟩ := (decodeOut_iff (m' := .struct [m1, q.val]) rfl).1 hrun
            cases q with
            | err w e' =>
              cases h
              simp only at hr
              subst hr
              rw [run_mapDecode_fail 5 (by omega) hne hX hmade hdv ⟨hkz, hvz⟩ ho
                (m3 := .struct [m1, .struct [i.kzero, i.vzero]]) (by rw [codecs_runtime]; exact call_Assign_slot rfl) rfl]
              exact (decodeOut_iff (r := .err (.map false es) _) (m' := m1) hm1).2 ⟨_, _, rfl, rfl⟩
            | ok w l =>
              obtain ⟨rfl, rfl⟩ := hr
              split at h
              · rename_i kv v' l' heq
                cases heq
                cases hkey : kv.toKey? with
                | none => rw [hkey] at h; cases h
                | some key =>
                  rw [hkey] at h
                  cases h
                  obtain ⟨m3, hm3⟩ := setPath_ok (x := .map false (touch i.vzero key es)) hw hg1
                  obtain ⟨hg3, hs3⟩ := setPath_get hm3
                  obtain ⟨e, he1, he2⟩ := touch_set (z := i.vzero) (v := v') (k := key) es
                  obtain ⟨m4, hm4⟩ := setPath_ok (x := .map false (mapAssign es key v')) hw hg3
                  have hM := call_MapAssign (z := i.vzero) (p := .slot 0 :: p) (s := [.slot 1]) (m := .struct [m1, .struct [kv, v']])
                    (m' := .struct [m3, .struct [kv, v']]) rfl hkey (by simpa only [getPath, List.getElem?_cons_zero] using hg1)
                    (by simp only [setPath, List.getElem?_cons_zero, hm3, List.set_cons_zero])
                  have hV := call_Assign_entry (z := i.vzero) (p := .slot 0 :: p) (s := [.slot 1] ++ [.slot 1]) (m := .struct [m3, .struct [kv, v']])
                    (m' := .struct [m4, .struct [kv, v']]) (v := v') rfl (by simpa only [getPath, List.getElem?_cons_zero] using hg3) he1
                    (by simp only [setPath, List.getElem?_cons_zero, he2, hm4, List.set_cons_zero])
                  rw [run_mapDecode 5 (by omega) hne hX hmade hdv ⟨hkz, hvz⟩ ho (es2 := es)
                    (by simpa only [DRes.val, getPath, List.getElem?_cons_zero] using hg1) (by rw [codecs_runtime]; exact hM) (by rw [codecs_runtime]; exact hV)
                    (m5 := .struct [m4, .struct [i.kzero, i.vzero]]) (by rw [codecs_runtime]; exact call_Assign_slot rfl) rfl]
                  refine (decodeOut_iff (m' := m4) ?_).2 ⟨_, _, rfl, ?_, rfl⟩
                  · simp only [DRes.val]
                    rw [← hs1, ← hs3, hm4]
                  · rw [BitVec.ofNat_add]
              · cases h
              · rename_i heq; cases heq
    | _ => cases h

theorem dec_msg {env : Env} {hit : List V → Val → Bool} {d : Nat} (hz : ∀ t, Room 0 (env t).zero)
    (hf : ∀ t, ∀ f ∈ (env t).fields, Zeros f.codec) : ∀ D t, DecMsgRuns env hit d D t := by
  intro D
  induction D with
  | zero => intro t; exact ⟨0, fun _ _ _ _ _ _ _ _ _ _ _ h _ => by simp only [decodeMsg] at h; cases h⟩
  | succ D ih =>
    intro t
    obtain ⟨N, hN⟩ := bound_all (P := fun j (f : Field) => ∀ (p : List Step) (v : Val) (b : Bytes) (r : DRes) (m : Val), Writable p → getPath p m = .ok v → b.length < 2 ^ 57 →
      b.length < d → codecDecode (fun t => (env t).zero) (decodeMsg env D) f.codec b v = .ok r → Small r.val →
      decodeOut p m (.ok r) (codecs env hit d j (some (.codec f.codec)) t!"decode" [.bytes (some b), .ptr p .uptr] m)) (env t).fields
      (fun f hf' => dec_codec hz hf ih f.codec (hf t f hf'))
    refine ⟨N, fun j hj p v b r m hw hp hb hd h hs => ?_⟩
    rw [decodeMsg] at h
    refine run_decode 3 (by omega) hd hw hp (fun f _ => bounded_codec _ _ (bounded_msg env D) f.codec) (fun f _ => keeps_codec (keeps_msg env D) f.codec) ?_ h hs
    intro f hf data v m r hle hp h hs
    exact hN j hj f hf _ v data r m (hw.snoc rfl) hp (by omega) (by omega) h hs

end Pb.Go
