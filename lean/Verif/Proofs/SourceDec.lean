import Verif.Proofs.SourceEnc
/-
Running the decode functions of normal_codec.go.
-/
namespace Pb.Go
open Tree

set_option linter.unusedSimpArgs false

variable {X : Calls} {d : Nat} (k : Nat) {m : Val}

/-! ### memory -/

theorem Writable.cons {t : Step} {r : List Step} (h : Writable (t :: r)) : t.writable = true ∧ Writable r :=
  ⟨h t (by simp), fun s hs => h s (by simp [hs])⟩

theorem Writable.snoc {t : Step} {r : List Step} (h : Writable r) (ht : t.writable = true) : Writable (r ++ [t]) := by
  intro s hs
  rcases List.mem_append.1 hs with hs | hs
  · exact h s hs
  · rw [List.mem_singleton.1 hs]; exact ht

/-- An element of a slice, replaced. -/
def setElem (n : Bool) (es sp : List Val) (i : Nat) (v : Val) : Val :=
  if i < es.length then .slice n (es.set i v) sp else .slice n es (sp.set (i - es.length) v)

theorem setElem_slots {n : Bool} {es sp : List Val} {i : Nat} {v : Val} : ∃ es' sp', setElem n es sp i v = .slice n es' sp' ∧
    es' ++ sp' = (es ++ sp).set i v ∧ es'.length = es.length := by
  unfold setElem
  split
  · rename_i h
    exact ⟨_, _, rfl, by rw [List.set_append_left _ _ h], by simp⟩
  · rename_i h
    exact ⟨_, _, rfl, by rw [List.set_append_right _ _ (by omega)], rfl⟩

/-- Slots and length determine a slice. -/
theorem slots_inj {es sp es' sp' : List Val} (h : es ++ sp = es' ++ sp') (hl : es.length = es'.length) : es = es' ∧ sp = sp' :=
  List.append_inj h hl

theorem setPath_ok {v x : Val} : ∀ {p : List Step} {m : Val}, Writable p → getPath p m = .ok v → ∃ m', setPath x p m = .ok m' := by
  intro p
  induction p with
  | nil => intro m _ _; exact ⟨x, by cases m <;> rfl⟩
  | cons t r ih =>
    intro m hw h
    obtain ⟨ht, hr⟩ := hw.cons
    cases t with
    | value =>
      cases m with
      | opt s w => obtain ⟨m', h'⟩ := ih hr h; exact ⟨.opt s m', by simp only [setPath, h']⟩
      | _ => cases h
    | slot i =>
      cases m with
      | struct vs =>
        simp only [getPath] at h
        cases hi : vs[i]? with
        | none => rw [hi] at h; cases h
        | some w =>
          rw [hi] at h
          obtain ⟨m', h'⟩ := ih hr h
          exact ⟨.struct (vs.set i m'), by simp only [setPath, hi, h']⟩
      | _ => cases h
    | deref =>
      cases m with
      | ptr w => obtain ⟨m', h'⟩ := ih hr h; exact ⟨.ptr m', by simp only [setPath, h']⟩
      | _ => cases h
    | elem i =>
      cases m with
      | slice n es sp =>
        simp only [getPath] at h
        cases hi : (es ++ sp)[i]? with
        | none => rw [hi] at h; cases h
        | some w =>
          rw [hi] at h
          obtain ⟨m', h'⟩ := ih hr h
          exact ⟨_, by simp only [setPath, hi, h']; rfl⟩
      | _ => cases h
    | entries => cases ht
    | key i => cases ht
    | entry i => cases ht

/-- What was put there is there, and putting it twice is putting the second. -/
theorem setPath_get {x : Val} : ∀ {p : List Step} {m m' : Val}, setPath x p m = .ok m' →
    getPath p m' = .ok x ∧ ∀ y, setPath y p m' = setPath y p m := by
  intro p
  induction p with
  | nil =>
    intro m m' h
    have : m' = x := by simp only [setPath, Except.ok.injEq] at h; exact h.symm
    subst this
    exact ⟨by cases m' <;> rfl, fun y => by simp only [setPath]⟩
  | cons t r ih =>
    intro m m' h
    cases t with
    | value =>
      cases m with
      | opt s w =>
        simp only [setPath] at h
        cases hs : setPath x r w with
        | error e => rw [hs] at h; cases h
        | ok w' =>
          rw [hs] at h
          cases h
          obtain ⟨h1, h2⟩ := ih hs
          exact ⟨h1, fun y => by simp only [setPath, h2]⟩
      | _ => cases h
    | slot i =>
      cases m with
      | struct vs =>
        simp only [setPath] at h
        cases hi : vs[i]? with
        | none => rw [hi] at h; cases h
        | some w =>
          rw [hi] at h
          simp only at h
          cases hs : setPath x r w with
          | error e => rw [hs] at h; cases h
          | ok w' =>
            rw [hs] at h
            cases h
            obtain ⟨h1, h2⟩ := ih hs
            obtain ⟨hlt, _⟩ := List.getElem?_eq_some_iff.1 hi
            have hg : (vs.set i w')[i]? = some w' := by rw [List.getElem?_set_self hlt]
            refine ⟨by simp only [getPath, hg, h1], fun y => ?_⟩
            simp only [setPath, hg, hi, h2, List.set_set]
      | _ => cases h
    | deref =>
      cases m with
      | ptr w =>
        simp only [setPath] at h
        cases hs : setPath x r w with
        | error e => rw [hs] at h; cases h
        | ok w' =>
          rw [hs] at h
          cases h
          obtain ⟨h1, h2⟩ := ih hs
          exact ⟨h1, fun y => by simp only [setPath, h2]⟩
      | _ => cases h
    | elem i =>
      cases m with
      | slice n es sp =>
        simp only [setPath] at h
        cases hi : (es ++ sp)[i]? with
        | none => rw [hi] at h; cases h
        | some w =>
          rw [hi] at h
          simp only at h
          cases hs : setPath x r w with
          | error e => rw [hs] at h; cases h
          | ok w' =>
            rw [hs] at h
            obtain ⟨h1, h2⟩ := ih hs
            obtain ⟨hlt, _⟩ := List.getElem?_eq_some_iff.1 hi
            obtain ⟨es', sp', he, hes, hel⟩ := setElem_slots (n := n) (es := es) (sp := sp) (i := i) (v := w')
            have hm : m' = .slice n es' sp' := by rw [← he]; cases h; rfl
            subst hm
            have hg : (es' ++ sp')[i]? = some w' := by rw [hes, List.getElem?_set_self hlt]
            refine ⟨by simp only [getPath, hg, h1], fun y => ?_⟩
            simp only [setPath, hg, hi, h2]
            cases setPath y r w with
            | error e => rfl
            | ok w2 =>
              obtain ⟨a, b, ha, hab, hal⟩ := setElem_slots (n := n) (es := es) (sp := sp) (i := i) (v := w2)
              obtain ⟨a', b', ha', hab', hal'⟩ := setElem_slots (n := n) (es := es') (sp := sp') (i := i) (v := w2)
              rw [hes, List.set_set] at hab'
              obtain ⟨h3, h4⟩ := slots_inj (hab.trans hab'.symm) (by omega)
              exact congrArg Except.ok (ha'.trans ((by rw [h3, h4] : Val.slice n a' b' = .slice n a b).trans ha.symm))
      | _ => cases h
    | entries => cases h
    | key i => cases h
    | entry i => cases h

/-- Putting back what is there changes nothing. -/
theorem setPath_same {v : Val} : ∀ {p : List Step} {m : Val}, Writable p → getPath p m = .ok v → setPath v p m = .ok m := by
  intro p
  induction p with
  | nil =>
    intro m _ h
    have : m = v := by simp only [getPath, Except.ok.injEq] at h; exact h
    subst this
    simp only [setPath]
  | cons t r ih =>
    intro m hw h
    obtain ⟨ht, hr⟩ := hw.cons
    cases t with
    | value =>
      cases m with
      | opt s w => simp only [setPath, ih hr h]
      | _ => cases h
    | slot i =>
      cases m with
      | struct vs =>
        simp only [getPath] at h
        cases hi : vs[i]? with
        | none => rw [hi] at h; cases h
        | some w =>
          rw [hi] at h
          obtain ⟨hlt, he⟩ := List.getElem?_eq_some_iff.1 hi
          simp only [setPath, hi, ih hr h, Except.ok.injEq, Val.struct.injEq]
          rw [← he, List.set_getElem_self]
      | _ => cases h
    | deref =>
      cases m with
      | ptr w => simp only [setPath, ih hr h]
      | _ => cases h
    | elem i =>
      cases m with
      | slice n es sp =>
        simp only [getPath] at h
        cases hi : (es ++ sp)[i]? with
        | none => rw [hi] at h; cases h
        | some w =>
          rw [hi] at h
          obtain ⟨hlt, he⟩ := List.getElem?_eq_some_iff.1 hi
          simp only [setPath, hi, ih hr h]
          obtain ⟨a, b, ha, hab, hal⟩ := setElem_slots (n := n) (es := es) (sp := sp) (i := i) (v := w)
          rw [← he, List.set_getElem_self] at hab
          obtain ⟨h3, h4⟩ := slots_inj hab hal
          rw [h3, h4] at ha
          exact congrArg Except.ok ha
      | _ => cases h
    | entries => cases ht
    | key i => cases ht
    | entry i => cases ht

/-- Reading step by step. -/
theorem getPath_append {v : Val} {q : List Step} : ∀ {p : List Step} {m : Val}, getPath p m = .ok v → getPath (p ++ q) m = getPath q v := by
  intro p
  induction p with
  | nil =>
    intro m h
    simp only [getPath, Except.ok.injEq] at h
    subst h
    rfl
  | cons t r ih =>
    intro m h
    cases t with
    | value =>
      cases m with
      | opt s w => exact ih h
      | _ => cases h
    | deref =>
      cases m with
      | ptr w => exact ih h
      | _ => cases h
    | entries =>
      cases m with
      | map n es => exact ih h
      | _ => cases h
    | slot i =>
      cases m with
      | struct vs =>
        simp only [getPath] at h
        cases hi : vs[i]? with
        | none => rw [hi] at h; cases h
        | some w => rw [hi] at h; simp only [List.cons_append, getPath, hi]; exact ih h
      | _ => cases h
    | elem i =>
      cases m with
      | slice n es sp =>
        simp only [getPath] at h
        cases hi : (es ++ sp)[i]? with
        | none => rw [hi] at h; cases h
        | some w => rw [hi] at h; simp only [List.cons_append, getPath, hi]; exact ih h
      | _ => cases h
    | key i =>
      cases m with
      | map n es =>
        simp only [getPath] at h
        cases hi : es[i]? with
        | none => rw [hi] at h; cases h
        | some w => rw [hi] at h; simp only [List.cons_append, getPath, hi]; exact ih h
      | _ => cases h
    | entry i =>
      cases m with
      | map n es =>
        simp only [getPath] at h
        cases hi : es[i]? with
        | none => rw [hi] at h; cases h
        | some w => rw [hi] at h; simp only [List.cons_append, getPath, hi]; exact ih h
      | _ => cases h

/-- Writing to a part. -/
theorem setPath_append {v x y : Val} {q : List Step} (hx : setPath x q v = .ok y) : ∀ {p : List Step} {m : Val},
    getPath p m = .ok v → setPath x (p ++ q) m = setPath y p m := by
  intro p
  induction p with
  | nil =>
    intro m h
    simp only [getPath, Except.ok.injEq] at h
    subst h
    simp only [List.nil_append, hx, setPath]
  | cons t r ih =>
    intro m h
    cases t with
    | value =>
      cases m with
      | opt s w => simp only [List.cons_append, setPath]; rw [ih h]
      | _ => cases h
    | deref =>
      cases m with
      | ptr w => simp only [List.cons_append, setPath]; rw [ih h]
      | _ => cases h
    | slot i =>
      cases m with
      | struct vs =>
        simp only [getPath] at h
        cases hi : vs[i]? with
        | none => rw [hi] at h; cases h
        | some w => rw [hi] at h; simp only [List.cons_append, setPath, hi]; rw [ih h]
      | _ => cases h
    | elem i =>
      cases m with
      | slice n es sp =>
        simp only [getPath] at h
        cases hi : (es ++ sp)[i]? with
        | none => rw [hi] at h; cases h
        | some w => rw [hi] at h; simp only [List.cons_append, setPath, hi]; rw [ih h]
      | _ => cases h
    | entries => simp only [List.cons_append, setPath]
    | key i => simp only [List.cons_append, setPath]
    | entry i => simp only [List.cons_append, setPath]

/-! ### decoding -/

theorem decodeOut_mk {p : List Step} {v m' : Val} {n : Nat} {e : Option Err} (h : setPath v p m = .ok m') :
    decodeOut p m (.ok (DRes.mk v n e)) (.ok ([.int (BitVec.ofNat 64 n), .err e], m')) := by
  cases e with
  | none => simp only [DRes.mk, decodeOut, h]; rfl
  | some e => exact ⟨_, by rw [h]; rfl⟩

theorem run_decodeBool (b : Bytes) {p : List Step} {v : Val} (hb : b.length < 2 ^ 60) (hw : Writable p) (hp : getPath p m = .ok v) :
    decodeOut p m (decodeScalar .bool b v) (invoke library X d (k + 3) none t!"decodeBool" [.bytes (some b), .ptr p .uptr] m) := by
  go_call find_decodeBool normal_decodeBool
  cases b with
  | nil =>
    refine ⟨0#64, ?_⟩
    go_run [hp, setPath_same hw hp]
  | cons c cs =>
    have hz : ¬ BitVec.ofNat 64 (cs.length + 1) = 0#64 :=
      fun h => absurd ((ofNat_inj (b := 0) (by simp at hb; omega) (by decide)).1 h) (by omega)
    unfold Pb.decodeScalar
    by_cases hc : c = 0#8
    · cases h : writeB8 v false with
      | error e => go_run [hp, h, hz, hc, decodeOut]
      | ok v' =>
        obtain ⟨m', hm⟩ := setPath_ok (x := v') hw hp
        go_run [hp, h, hz, hc, decodeOut, hm]
    · have hc : (c != 0#8) = true := bne_iff_ne.2 hc
      have hc' : c ≠ 0#8 := bne_iff_ne.1 hc
      cases h : writeB8 v true with
      | error e => go_run [hp, h, hz, hc, hc', decodeOut]
      | ok v' =>
        obtain ⟨m', hm⟩ := setPath_ok (x := v') hw hp
        go_run [hp, h, hz, hc, hc', decodeOut, hm]

theorem varlen_bounds {b : Bytes} (hb : b.length < 2 ^ 60) :
    ∀ c n e, decodeVarlen b = .ok (c, n, e) → n < 2 ^ 64 ∧ (e ≠ none → c = []) := by
  intro c n e h
  unfold decodeVarlen at h
  have hv := decodeVarint_n_le b
  generalize decodeVarint b = r at h hv
  obtain ⟨x, i, o⟩ := r
  simp only at h hv
  cases o with
  | some _ => simp only [Except.ok.injEq, Prod.mk.injEq] at h; exact ⟨by omega, fun _ => h.1.symm⟩
  | none =>
    simp only at h
    split at h
    · simp only [Except.ok.injEq, Prod.mk.injEq] at h; exact ⟨by omega, fun _ => h.1.symm⟩
    · unfold goSlice at h
      split at h
      · rename_i hs
        simp only [bind, Except.bind, pure, Except.pure, Except.ok.injEq, Prod.mk.injEq] at h
        exact ⟨by omega, fun he => absurd h.2.2.symm he⟩
      · cases h

theorem run_decodeString (b : Bytes) {p : List Step} {v : Val} (hb : b.length < 2 ^ 60) (hp' : Writable p) (hp : getPath p m = .ok v) :
    decodeOut p m (decodeScalar .string b v) (invoke library X d (k + 3) none t!"decodeString" [.bytes (some b), .ptr p .uptr] m) := by
  go_call find_decodeString normal_decodeString
  have hr := run_decodeVarlen (X := X) (d := d) k (m := m) b hb
  unfold Pb.decodeScalar
  have hn := varlen_bounds hb
  cases hv : decodeVarlen b with
  | error e => rw [hv] at hr; go_run [hr, hv, decodeOut]
  | ok r =>
    obtain ⟨c, n, e⟩ := r
    obtain ⟨hn1, hn2⟩ := hn c n e hv
    have hz : BitVec.ofNat 64 n = 0#64 ↔ n = 0 := ofNat_inj (b := 0) hn1 (by decide)
    rw [hv] at hr
    by_cases h0 : n = 0
    · cases hw : writeStr v [] with
      | error f => cases e <;> go_run [hr, hv, hp, hw, varlenResult, hz, h0, decodeOut]
      | ok v' =>
        obtain ⟨m', hm⟩ := setPath_ok (x := v') hp' hp
        cases e <;> go_run [hr, hv, hp, hw, hm, varlenResult, hz, h0] <;> exact decodeOut_mk hm
    · cases hw : writeStr v c with
      | error f =>
        cases e with
        | none => go_run [hr, hv, hp, hw, varlenResult, hz, h0, decodeOut]
        | some e =>
          have hc := hn2 (by simp)
          subst hc
          go_run [hr, hv, hp, hw, varlenResult, hz, h0, decodeOut]
      | ok v' =>
        obtain ⟨m', hm⟩ := setPath_ok (x := v') hp' hp
        cases e with
        | none => go_run [hr, hv, hp, hw, hm, varlenResult, hz, h0]; exact decodeOut_mk hm
        | some e =>
          have hc := hn2 (by simp)
          subst hc
          go_run [hr, hv, hp, hw, hm, varlenResult, hz, h0]
          exact decodeOut_mk hm

theorem decodeBytes_eq (b : Bytes) (v : Val) : decodeBytes b v =
    (decodeVarlen b).bind fun r => (readBytes v).bind fun _ => .ok (DRes.mk (.bytes (some r.1)) r.2.1 r.2.2) := by
  unfold decodeBytes
  cases decodeVarlen b with
  | error e => rfl
  | ok r => cases v <;> rfl

theorem readBytes_ok {v : Val} {s : Option Bytes} (h : readBytes v = .ok s) : v = .bytes s := by
  cases v with
  | bytes t => cases h; rfl
  | _ => cases h

theorem run_decodeBytes (b : Bytes) {p : List Step} {v : Val} (hb : b.length < 2 ^ 60) (hw : Writable p) (hp : getPath p m = .ok v) :
    decodeOut p m (decodeBytes b v) (invoke library X d (k + 3) none t!"decodeBytes" [.bytes (some b), .ptr p .uptr] m) := by
  go_call find_decodeBytes normal_decodeBytes
  have hr := run_decodeVarlen (X := X) (d := d) k (m := m) b hb
  rw [decodeBytes_eq]
  have hn := varlen_bounds hb
  cases hv : decodeVarlen b with
  | error e => rw [hv] at hr; go_run [hr, hv, decodeOut]
  | ok r =>
    obtain ⟨c, n, e⟩ := r
    obtain ⟨hn1, hn2⟩ := hn c n e hv
    rw [hv] at hr
    cases hs : readBytes v with
    | error f => cases e <;> go_run [hr, hv, hp, hs, varlenResult, decodeOut]
    | ok s =>
      have := readBytes_ok hs
      subst this
      obtain ⟨m', hm⟩ := setPath_ok (x := .bytes (some c)) hw hp
      obtain ⟨m1, hm1⟩ := setPath_ok (x := .bytes (some [])) hw hp
      obtain ⟨g1, g2⟩ := setPath_get hm1
      have g3 := g2 (.bytes (some c))
      rw [hm] at g3
      cases s with
      | none =>
        cases e with
        | none => go_run [hr, hv, hp, readBytes, hm1, g1, g3, varlenResult]; exact decodeOut_mk hm
        | some e =>
          have hc := hn2 (by simp)
          subst hc
          go_run [hr, hv, hp, readBytes, hm1, g1, g3, varlenResult]; exact decodeOut_mk hm
      | some s =>
        cases e with
        | none => go_run [hr, hv, hp, readBytes, hm, varlenResult]; exact decodeOut_mk hm
        | some e =>
          have hc := hn2 (by simp)
          subst hc
          go_run [hr, hv, hp, readBytes, hm, varlenResult]; exact decodeOut_mk hm

theorem run_decodeFloat32 (b : Bytes) {p : List Step} {v : Val} (hb : b.length < 2 ^ 60) (hw : Writable p) (hp : getPath p m = .ok v) :
    decodeOut p m (decodeScalar .float32 b v) (invoke library X d (k + 3) none t!"decodeFloat32" [.bytes (some b), .ptr p .uptr] m) := by
  go_call find_decodeFloat32 normal_decodeFloat32
  unfold Pb.decodeScalar
  cases h : write32 v (decodeLE32 b).1 with
  | error e => go_run [hp, h, run_decodeLE32, hb, varintResult, run_decodeZigZag64, decodeOut]
  | ok v' =>
    obtain ⟨m', hm⟩ := setPath_ok (x := v') hw hp
    go_run [hp, h, hm, run_decodeLE32, hb, varintResult, run_decodeZigZag64]
    exact decodeOut_mk hm

theorem run_decodeFloat64 (b : Bytes) {p : List Step} {v : Val} (hb : b.length < 2 ^ 60) (hw : Writable p) (hp : getPath p m = .ok v) :
    decodeOut p m (decodeScalar .float64 b v) (invoke library X d (k + 3) none t!"decodeFloat64" [.bytes (some b), .ptr p .uptr] m) := by
  go_call find_decodeFloat64 normal_decodeFloat64
  unfold Pb.decodeScalar
  cases h : write64 v (decodeLE64 b).1 with
  | error e => go_run [hp, h, run_decodeLE64, hb, varintResult, run_decodeZigZag64, decodeOut]
  | ok v' =>
    obtain ⟨m', hm⟩ := setPath_ok (x := v') hw hp
    go_run [hp, h, hm, run_decodeLE64, hb, varintResult, run_decodeZigZag64]
    exact decodeOut_mk hm

theorem run_decodeInt32 (b : Bytes) {p : List Step} {v : Val} (hb : b.length < 2 ^ 60) (hw : Writable p) (hp : getPath p m = .ok v) :
    decodeOut p m (decodeScalar .int32 b v) (invoke library X d (k + 3) none t!"decodeInt32" [.bytes (some b), .ptr p .uptr] m) := by
  go_call find_decodeInt32 normal_decodeInt32
  unfold Pb.decodeScalar
  cases h : write32 v ((decodeVarint b).1.setWidth 32) with
  | error e => go_run [hp, h, run_decodeVarint, hb, varintResult, run_decodeZigZag64, decodeOut]
  | ok v' =>
    obtain ⟨m', hm⟩ := setPath_ok (x := v') hw hp
    go_run [hp, h, hm, run_decodeVarint, hb, varintResult, run_decodeZigZag64]
    exact decodeOut_mk hm

theorem run_decodeInt64 (b : Bytes) {p : List Step} {v : Val} (hb : b.length < 2 ^ 60) (hw : Writable p) (hp : getPath p m = .ok v) :
    decodeOut p m (decodeScalar .int64 b v) (invoke library X d (k + 3) none t!"decodeInt64" [.bytes (some b), .ptr p .uptr] m) := by
  go_call find_decodeInt64 normal_decodeInt64
  unfold Pb.decodeScalar
  cases h : write64 v (decodeVarint b).1 with
  | error e => go_run [hp, h, run_decodeVarint, hb, varintResult, run_decodeZigZag64, decodeOut]
  | ok v' =>
    obtain ⟨m', hm⟩ := setPath_ok (x := v') hw hp
    go_run [hp, h, hm, run_decodeVarint, hb, varintResult, run_decodeZigZag64]
    exact decodeOut_mk hm

theorem run_decodeUint32 (b : Bytes) {p : List Step} {v : Val} (hb : b.length < 2 ^ 60) (hw : Writable p) (hp : getPath p m = .ok v) :
    decodeOut p m (decodeScalar .uint32 b v) (invoke library X d (k + 3) none t!"decodeUint32" [.bytes (some b), .ptr p .uptr] m) := by
  go_call find_decodeUint32 normal_decodeUint32
  unfold Pb.decodeScalar
  cases h : write32 v ((decodeVarint b).1.setWidth 32) with
  | error e => go_run [hp, h, run_decodeVarint, hb, varintResult, run_decodeZigZag64, decodeOut]
  | ok v' =>
    obtain ⟨m', hm⟩ := setPath_ok (x := v') hw hp
    go_run [hp, h, hm, run_decodeVarint, hb, varintResult, run_decodeZigZag64]
    exact decodeOut_mk hm

theorem run_decodeFixed32 (b : Bytes) {p : List Step} {v : Val} (hb : b.length < 2 ^ 60) (hw : Writable p) (hp : getPath p m = .ok v) :
    decodeOut p m (decodeScalar .fixed32 b v) (invoke library X d (k + 3) none t!"decodeFixed32" [.bytes (some b), .ptr p .uptr] m) := by
  go_call find_decodeFixed32 normal_decodeFixed32
  unfold Pb.decodeScalar
  cases h : write32 v (decodeLE32 b).1 with
  | error e => go_run [hp, h, run_decodeLE32, hb, varintResult, run_decodeZigZag64, decodeOut]
  | ok v' =>
    obtain ⟨m', hm⟩ := setPath_ok (x := v') hw hp
    go_run [hp, h, hm, run_decodeLE32, hb, varintResult, run_decodeZigZag64]
    exact decodeOut_mk hm

theorem run_decodeUint64 (b : Bytes) {p : List Step} {v : Val} (hb : b.length < 2 ^ 60) (hw : Writable p) (hp : getPath p m = .ok v) :
    decodeOut p m (decodeScalar .uint64 b v) (invoke library X d (k + 3) none t!"decodeUint64" [.bytes (some b), .ptr p .uptr] m) := by
  go_call find_decodeUint64 normal_decodeUint64
  unfold Pb.decodeScalar
  cases h : write64 v (decodeVarint b).1 with
  | error e => go_run [hp, h, run_decodeVarint, hb, varintResult, run_decodeZigZag64, decodeOut]
  | ok v' =>
    obtain ⟨m', hm⟩ := setPath_ok (x := v') hw hp
    go_run [hp, h, hm, run_decodeVarint, hb, varintResult, run_decodeZigZag64]
    exact decodeOut_mk hm

theorem run_decodeFixed64 (b : Bytes) {p : List Step} {v : Val} (hb : b.length < 2 ^ 60) (hw : Writable p) (hp : getPath p m = .ok v) :
    decodeOut p m (decodeScalar .fixed64 b v) (invoke library X d (k + 3) none t!"decodeFixed64" [.bytes (some b), .ptr p .uptr] m) := by
  go_call find_decodeFixed64 normal_decodeFixed64
  unfold Pb.decodeScalar
  cases h : write64 v (decodeLE64 b).1 with
  | error e => go_run [hp, h, run_decodeLE64, hb, varintResult, run_decodeZigZag64, decodeOut]
  | ok v' =>
    obtain ⟨m', hm⟩ := setPath_ok (x := v') hw hp
    go_run [hp, h, hm, run_decodeLE64, hb, varintResult, run_decodeZigZag64]
    exact decodeOut_mk hm

theorem run_decodeZigzag32 (b : Bytes) {p : List Step} {v : Val} (hb : b.length < 2 ^ 60) (hw : Writable p) (hp : getPath p m = .ok v) :
    decodeOut p m (decodeScalar .zigzag32 b v) (invoke library X d (k + 3) none t!"decodeZigzag32" [.bytes (some b), .ptr p .uptr] m) := by
  go_call find_decodeZigzag32 normal_decodeZigzag32
  unfold Pb.decodeScalar
  cases h : write32 v ((decodeZigZag64 (decodeVarint b).1).setWidth 32) with
  | error e => go_run [hp, h, run_decodeVarint, hb, varintResult, run_decodeZigZag64, decodeOut]
  | ok v' =>
    obtain ⟨m', hm⟩ := setPath_ok (x := v') hw hp
    go_run [hp, h, hm, run_decodeVarint, hb, varintResult, run_decodeZigZag64]
    exact decodeOut_mk hm

theorem run_decodeZigzag64 (b : Bytes) {p : List Step} {v : Val} (hb : b.length < 2 ^ 60) (hw : Writable p) (hp : getPath p m = .ok v) :
    decodeOut p m (decodeScalar .zigzag64 b v) (invoke library X d (k + 3) none t!"decodeZigzag64" [.bytes (some b), .ptr p .uptr] m) := by
  go_call find_decodeZigzag64 normal_decodeZigzag64
  unfold Pb.decodeScalar
  cases h : write64 v (decodeZigZag64 (decodeVarint b).1) with
  | error e => go_run [hp, h, run_decodeVarint, hb, varintResult, run_decodeZigZag64, decodeOut]
  | ok v' =>
    obtain ⟨m', hm⟩ := setPath_ok (x := v') hw hp
    go_run [hp, h, hm, run_decodeVarint, hb, varintResult, run_decodeZigZag64]
    exact decodeOut_mk hm

end Pb.Go
