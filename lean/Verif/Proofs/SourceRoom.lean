import Verif.Spec.Source
import Verif.Proofs.Depth
import Verif.Model.Pool
import Verif.Spec.Typing
/-
How large slices are after decoding: one element is added for each byte read at most.
-/
namespace Pb.Go

theorem rooms_iff {k : Nat} {vs : List Val} : Rooms k vs ↔ ∀ v ∈ vs, Room k v := by
  induction vs with
  | nil => simp [Rooms]
  | cons v vs ih => simp [Rooms, ih]

mutual
theorem room_mono {k l : Nat} (h : k ≤ l) : ∀ {v : Val}, Room k v → Room l v
  | .opt _ v, hv => by simp only [Room] at hv ⊢; exact room_mono h hv
  | .ptr v, hv => by simp only [Room] at hv ⊢; exact room_mono h hv
  | .struct vs, hv => by simp only [Room] at hv ⊢; exact rooms_mono h hv
  | .slice _ es sp, hv => by
    simp only [Room] at hv ⊢
    exact ⟨by omega, by omega, rooms_mono h hv.2.2.1, rooms_mono h hv.2.2.2⟩
  | .b8 _, _ => by simp only [Room]
  | .w32 _, _ => by simp only [Room]
  | .w64 _, _ => by simp only [Room]
  | .str _, _ => by simp only [Room]
  | .bytes _, _ => by simp only [Room]
  | .nilp, _ => by simp only [Room]
  | .map _ _, _ => by simp only [Room]
  | .opaque _, _ => by simp only [Room]
theorem rooms_mono {k l : Nat} (h : k ≤ l) : ∀ {vs : List Val}, Rooms k vs → Rooms l vs
  | [], _ => by simp only [Rooms]
  | v :: vs, hv => by simp only [Rooms] at hv ⊢; exact ⟨room_mono h hv.1, rooms_mono h hv.2⟩
end

theorem room_zero : ∀ s : Shape, Room 0 s.zero
  | .b8 => by simp only [Shape.zero, Room]
  | .w32 => by simp only [Shape.zero, Room]
  | .w64 => by simp only [Shape.zero, Room]
  | .str => by simp only [Shape.zero, Room]
  | .bytes => by simp only [Shape.zero, Room]
  | .opt s => by simp only [Shape.zero, Room]; exact room_zero s
  | .ptr _ => by simp only [Shape.zero, Room]
  | .msg _ => by simp only [Shape.zero, Room]
  | .slice _ => by simp [Shape.zero, Room, Rooms]
  | .map _ _ => by simp only [Shape.zero, Room]
  | .opaque => by simp only [Shape.zero, Room]

theorem isZero_zero : ∀ s : Shape, isZero s.zero = true
  | .opt s => by simp only [Shape.zero, isZero, isZero_zero s]; rfl
  | .b8 | .w32 | .w64 | .str | .bytes | .ptr _ | .msg _ | .slice _ | .map _ _ | .opaque => by simp [Shape.zero, isZero]

mutual
theorem room_small {k : Nat} (h : 2 * k + 10 < 2 ^ 60) : ∀ {v : Val}, Room k v → Small v
  | .opt _ v, hv => by simp only [Room, Small] at hv ⊢; exact room_small h hv
  | .ptr v, hv => by simp only [Room, Small] at hv ⊢; exact room_small h hv
  | .struct vs, hv => by simp only [Room, Small] at hv ⊢; exact rooms_small h hv
  | .slice _ es sp, hv => by
    simp only [Room, Small] at hv ⊢
    exact ⟨by omega, rooms_small h hv.2.2.1, rooms_small h hv.2.2.2⟩
  | .b8 _, _ => by simp only [Small]
  | .w32 _, _ => by simp only [Small]
  | .w64 _, _ => by simp only [Small]
  | .str _, _ => by simp only [Small]
  | .bytes _, _ => by simp only [Small]
  | .nilp, _ => by simp only [Small]
  | .map _ _, _ => by simp only [Small]
  | .opaque _, _ => by simp only [Small]
theorem rooms_small {k : Nat} (h : 2 * k + 10 < 2 ^ 60) : ∀ {vs : List Val}, Rooms k vs → Smalls vs
  | [], _ => by simp only [Smalls]
  | v :: vs, hv => by simp only [Rooms, Smalls] at hv ⊢; exact ⟨room_small h hv.1, rooms_small h hv.2⟩
end

theorem rooms_append {k : Nat} {a b : List Val} : Rooms k (a ++ b) ↔ Rooms k a ∧ Rooms k b := by
  simp only [rooms_iff, List.mem_append]
  exact ⟨fun h => ⟨fun v hv => h v (.inl hv), fun v hv => h v (.inr hv)⟩, fun h v hv => hv.elim (h.1 v) (h.2 v)⟩

theorem rooms_set {k : Nat} {vs : List Val} {i : Nat} {w : Val} (h : Rooms k vs) (hw : Room k w) : Rooms k (vs.set i w) := by
  rw [rooms_iff] at h ⊢
  intro x hx
  rcases List.mem_or_eq_of_mem_set hx with hx | rfl
  · exact h x hx
  · exact hw

theorem rooms_get {k : Nat} {vs : List Val} {i : Nat} {v : Val} (h : Rooms k vs) (hi : vs[i]? = some v) : Room k v :=
  rooms_iff.1 h v (List.mem_of_getElem? hi)

/-- The slices grow by at most `a` and one for each byte read. -/
def Grows (a : Nat) (dec : Bytes → Val → Except Fault DRes) : Prop :=
  ∀ b v k r, dec b v = .ok r → Room k v →
    match (generalizing := false) r with
    | .ok w n => Room (k + a + n) w
    | .err w _ => Room (k + a + b.length) w

/-- The new value has slices that are in the old one. -/
theorem grows_of {a : Nat} {dec : Bytes → Val → Except Fault DRes} (h : ∀ b v k r, dec b v = .ok r → Room k v → Room k r.val) : Grows a dec := by
  intro b v k r hr hk
  have := h b v k r hr hk
  cases r <;> exact room_mono (by rw [Nat.add_assoc]; exact Nat.le_add_right _ _) this

theorem mk_val {v : Val} {n : Nat} {e : Option Err} : (DRes.mk v n e).val = v := by cases e <;> rfl

theorem writeB8_room {v w : Val} {x : Bool} (h : writeB8 v x = .ok w) (k : Nat) : Room k w := by
  cases v <;> cases h
  simp only [Room]
theorem write32_room {v w : Val} {x : U32} (h : write32 v x = .ok w) (k : Nat) : Room k w := by
  cases v <;> cases h
  simp only [Room]
theorem write64_room {v w : Val} {x : U64} (h : write64 v x = .ok w) (k : Nat) : Room k w := by
  cases v <;> cases h
  simp only [Room]
theorem writeStr_room {v w : Val} {x : Bytes} (h : writeStr v x = .ok w) (k : Nat) : Room k w := by
  cases v <;> cases h
  simp only [Room]

theorem room_scalar {s : Scalar} {b : Bytes} {v : Val} {k : Nat} {r : DRes} (h : decodeScalar s b v = .ok r) (hv : Room k v) : Room k r.val := by
  cases s <;> simp only [decodeScalar, bind, Except.bind, pure, Except.pure] at h
  case bool =>
    split at h
    · cases h; exact hv
    · split at h
      · cases h
      · rename_i hw; cases h; exact writeB8_room hw k
  case string =>
    repeat' split at h
    all_goals first
      | cases h; done
      | (rename_i hw; cases h; rw [mk_val]; exact writeStr_room hw k)
  all_goals
    split at h
    · cases h
    · rename_i hw
      cases h
      rw [mk_val]
      first | exact write32_room hw k | exact write64_room hw k

theorem room_option {s : Scalar} {b : Bytes} {v : Val} {k : Nat} {r : DRes} (h : decodeOption s b v = .ok r) (hv : Room k v) : Room k r.val := by
  cases v with
  | opt o w =>
    simp only [decodeOption] at h
    cases hd : decodeScalar s b w with
    | error e => rw [hd] at h; cases h
    | ok q =>
      rw [hd] at h
      cases h
      simp only [Room] at hv
      have := room_scalar hd hv
      cases q <;> simpa only [DRes.wrap, DRes.val, Room] using this
  | _ => cases h

theorem room_bytes {b : Bytes} {v : Val} {k : Nat} {r : DRes} (h : decodeBytes b v = .ok r) : Room k r.val := by
  simp only [decodeBytes] at h
  cases hd : decodeVarlen b with
  | error e => rw [hd] at h; cases h
  | ok x =>
    rw [hd] at h
    cases v with
    | bytes _ => cases h; rw [mk_val]; simp only [Room]
    | _ => cases h

/-- One more element. -/
theorem slice_room {isNil : Bool} {k n : Nat} {es sp sp' : List Val} {slot z : Val} (hz : Room 0 z) (hg : growIfFull z es sp = slot :: sp')
    (h : Room k (.slice isNil es sp)) :
    Room k slot ∧ ∀ (w : Val) (nil' : Bool), Room (k + 1 + n) w → Room (k + 1 + n) (.slice nil' (es ++ [w]) sp') ∧ Room (k + 1 + n) (.slice nil' es (w :: sp')) := by
  simp only [Room] at h
  obtain ⟨h1, h2, h3, h4⟩ := h
  have hl : es.length + (1 + sp'.length) ≤ 2 * k + 10 ∧ Room k slot ∧ Rooms k sp' := by
    unfold growIfFull at hg
    by_cases hs : sp = []
    · rw [if_pos hs] at hg
      have hm : ∀ v ∈ slot :: sp', v = z := by rw [← hg]; exact fun v hv => List.eq_of_mem_replicate hv
      have hc := congrArg List.length hg
      simp only [List.length_replicate, List.length_cons, hs, List.length_nil] at hc
      refine ⟨?_, ?_, ?_⟩
      · split at hc <;> omega
      · rw [hm slot (List.mem_cons_self ..)]; exact room_mono (Nat.zero_le _) hz
      · exact rooms_iff.2 fun v hv => by rw [hm v (List.mem_cons_of_mem _ hv)]; exact room_mono (Nat.zero_le _) hz
    · rw [if_neg hs] at hg
      subst hg
      simp only [List.length_cons, Rooms] at h2 h4
      exact ⟨by omega, h4.1, h4.2⟩
  obtain ⟨h5, h6, h7⟩ := hl
  refine ⟨h6, fun w nil' hw => ?_⟩
  have hes := rooms_mono (show k ≤ k + 1 + n by omega) h3
  have hsp := rooms_mono (show k ≤ k + 1 + n by omega) h7
  constructor
  · simp only [Room, List.length_append, List.length_cons, List.length_nil, rooms_append, Rooms]
    exact ⟨by omega, by omega, ⟨hes, hw, trivial⟩, hsp⟩
  · simp only [Room, List.length_cons, Rooms]
    exact ⟨by omega, by omega, hes, hw, hsp⟩

/-- The values `reflect.New` gives have no slices. -/
def Zeros : Codec → Prop
  | .ptr z c => Room 0 z ∧ Zeros c
  | .slice z c => Room 0 z ∧ Zeros c
  | .map i _ _ kd vd => Room 0 i.kzero ∧ Room 0 i.vzero ∧ isZero i.kzero = true ∧ isZero i.vzero = true ∧ Zeros kd ∧ Zeros vd
  | _ => True

theorem zeros_wf : ∀ {c : Codec}, c.WF → Zeros c := by
  intro c
  induction c with
  | ptr z c ih => rintro ⟨rfl, h⟩; exact ⟨room_zero _, ih h⟩
  | slice z c ih => rintro ⟨rfl, h⟩; exact ⟨room_zero _, ih h⟩
  | map i kc vc kd vd _ _ ihk ihv =>
    rintro ⟨_, _, _, hk, hv, _, _, h1, h2⟩
    exact ⟨hk ▸ room_zero _, hv ▸ room_zero _, hk ▸ isZero_zero _, hv ▸ isZero_zero _, ihk h1, ihv h2⟩
  | _ => intro _; trivial

theorem grows_codec {zeros : TypeId → Val} {rec : TypeId → Bytes → Val → Except Fault DRes} (hz : ∀ t, Room 0 (zeros t)) (hrec : ∀ t, Grows 0 (rec t)) :
    ∀ c, Zeros c → Grows 1 (codecDecode zeros rec c) := by
  intro c
  induction c with
  | normal s => exact fun _ => grows_of fun _ _ _ _ h hv => room_scalar h hv
  | required s => exact fun _ => grows_of fun _ _ _ _ h hv => room_scalar h hv
  | option s => exact fun _ => grows_of fun _ _ _ _ h hv => room_option h hv
  | bytes => exact fun _ => grows_of fun _ _ _ _ h _ => room_bytes h
  | ptr z c ih =>
    intro hc b v k r h hv
    simp only [codecDecode] at h
    have : ∃ w q, Room k w ∧ codecDecode zeros rec c b w = .ok q ∧ r = q.wrap .ptr := by
      cases v with
      | nilp =>
        cases hd : codecDecode zeros rec c b z with
        | error e => simp only [hd] at h; cases h
        | ok q => simp only [hd] at h; cases h; exact ⟨z, q, room_mono (Nat.zero_le _) hc.1, hd, rfl⟩
      | ptr w =>
        simp only [Room] at hv
        cases hd : codecDecode zeros rec c b w with
        | error e => simp only [hd] at h; cases h
        | ok q => simp only [hd] at h; cases h; exact ⟨w, q, hv, hd, rfl⟩
      | _ => cases h
    obtain ⟨w, q, hw, hd, rfl⟩ := this
    have := ih hc.2 b w k q hd hw
    cases q <;> simpa only [DRes.wrap, Room] using this
  | msg t =>
    intro _ b v k r h hv
    simp only [codecDecode] at h
    have : ∃ w, Room k w ∧ (do
          let (_, n, err) := decodeVarint b
          match err with
          | some e => return .err (.ptr w) e
          | none =>
            match ← rec t (← goFrom b n) w with
            | .ok v l => return .ok (.ptr v) (n + l)
            | .err v e => return .err (.ptr v) e) = Except.ok r := by
      cases v with
      | nilp => exact ⟨zeros t, room_mono (Nat.zero_le _) (hz t), h⟩
      | ptr w => simp only [Room] at hv; exact ⟨w, hv, h⟩
      | _ => simp only [bind, Except.bind] at h; cases h
    obtain ⟨w, hw, h⟩ := this
    rcases hdv : decodeVarint b with ⟨x, n, e⟩
    rw [hdv] at h
    simp only [bind, Except.bind, pure, Except.pure] at h
    cases e with
    | some e => cases h; simp only [Room]; exact room_mono (by omega) hw
    | none =>
      have hle := decodeVarint_le hdv
      have hgo : goFrom b n = .ok (b.drop n) := by simp only [goFrom, if_pos hle]
      simp only [hgo] at h
      cases hd : rec t (b.drop n) w with
      | error e => simp only [hd] at h; cases h
      | ok q =>
        simp only [hd] at h
        have := hrec t _ _ _ _ hd hw
        cases q with
        | ok w' l => cases h; simp only [Room]; exact room_mono (by omega) this
        | err w' e =>
          cases h
          simp only [Room]
          simp only [List.length_drop] at this
          exact room_mono (by omega) this
  | slice z c ih =>
    intro hc b v k r h hv
    simp only [codecDecode] at h
    cases v with
    | slice isNil es sp =>
      simp only at h
      cases hg : growIfFull z es sp with
      | nil => simp only [hg] at h; cases h
      | cons slot sp' =>
        simp only [hg] at h
        cases hd : codecDecode zeros rec c b slot with
        | error e => simp only [hd] at h; cases h
        | ok q =>
          simp only [hd, bind, Except.bind, pure, Except.pure] at h
          have hslot := (slice_room (n := 0) hc.1 hg hv).1
          have := ih hc.2 b slot k q hd hslot
          cases q with
          | ok w n => cases h; exact ((slice_room hc.1 hg hv).2 w _ this).1
          | err w e => cases h; exact ((slice_room hc.1 hg hv).2 w _ this).2
    | _ => cases h
  | map i kc vc kd vd _ _ _ _ =>
    intro _ b v k r h hv
    have : ∃ n es, r.val = .map n es := by
      simp only [codecDecode] at h
      cases v with
      | map _ m =>
        simp only at h
        split at h
        · cases h; exact ⟨_, _, rfl⟩
        · rcases hdv : decodeVarint b with ⟨x, n, e⟩
          rw [hdv] at h
          simp only [bind, Except.bind, pure, Except.pure] at h
          repeat' split at h
          all_goals first
            | cases h; done
            | (cases h; exact ⟨_, _, rfl⟩)
      | _ => cases h
    obtain ⟨n, es, hr⟩ := this
    cases r <;> (simp only [DRes.val] at hr; subst hr; simp only [Room])

theorem loop_grows {idx : Nat → Option DField} {b : Bytes} (hb : ∀ n f, idx n = some f → Bounded f.dec) (hk : ∀ n f, idx n = some f → Grows 1 f.dec) :
    ∀ (fuel off : Nat) (vs : List Val) (k : Nat) (r : DRes), off ≤ b.length → structLoop idx b fuel off vs = .ok r → Rooms (k + off) vs →
      match (generalizing := false) r with
      | .ok w n => Room (k + n) w
      | .err w _ => Room (k + b.length) w := by
  intro fuel
  induction fuel with
  | zero =>
    intro off vs k r ho h hv
    unfold structLoop at h
    split at h
    · cases h
    · cases h; simpa only [Room] using hv
  | succ fuel ih =>
    intro off vs k r ho h hv
    have hend : Room (k + b.length) (.struct vs) := by simp only [Room]; exact rooms_mono (by omega) hv
    unfold structLoop at h
    split at h
    · have hgo : goFrom b off = .ok (b.drop off) := by simp only [goFrom, if_pos ho]
      simp only [hgo, bind, Except.bind, pure, Except.pure] at h
      rcases ht : decodeTag (b.drop off) with ⟨num, wt, n, e⟩
      rw [ht] at h
      have hn := decodeTag_le ht
      simp only [List.length_drop] at hn
      cases e with
      | some e => cases h; exact hend
      | none =>
        have hpos := decodeTag_pos ht
        simp only at h
        cases hf : idx num with
        | none =>
          rw [hf] at h
          obtain ⟨m, hu⟩ := skipUnknown_eq (b := b) (o := off + n) (wt := wt) (by omega)
          cases hp : takePayload (b.drop (off + n)) wt with
          | error e =>
            rw [hp] at hu
            simp only at hu
            simp only [hu] at h
            cases h; exact hend
          | ok x =>
            obtain ⟨d, rest⟩ := x
            rw [hp] at hu
            simp only at hu
            simp only [hu] at h
            have hl := congrArg List.length (takePayload_append hp)
            simp only [List.length_append, List.length_drop] at hl
            exact ih _ _ k _ (by omega) h (rooms_mono (by omega) hv)
        | some f =>
          simp only [hf] at h
          split at h
          · cases h; exact hend
          · rw [fieldData_eq (by omega)] at h
            cases hp : takePayload (b.drop (off + n)) wt with
            | error e => simp only [hp] at h; cases h; exact hend
            | ok x =>
              obtain ⟨d, rest⟩ := x
              simp only [hp] at h
              have hl := takePayload_len hp
              simp only [List.length_drop] at hl
              simp only [slotOf] at h
              cases hs : vs[f.offset]? with
              | none => rw [hs] at h; cases h
              | some v =>
                simp only [hs] at h
                cases hr : f.dec d v with
                | error e => simp only [hr] at h; cases h
                | ok r' =>
                  simp only [hr] at h
                  have hg := hk _ _ hf _ _ _ _ hr (rooms_get hv hs)
                  cases r' with
                  | ok v' n' =>
                    have hn' := hb _ _ hf _ _ _ _ hr
                    simp only at hg
                    exact ih _ _ k _ (by omega) h (rooms_set (rooms_mono (by omega) hv) (room_mono (by omega) hg))
                  | err v' e =>
                    cases h
                    simp only [Room]
                    exact rooms_set (rooms_mono (by omega) hv) (room_mono (by omega) hg)
    · cases h; simpa only [Room] using hv

theorem grows_fields {zeros : TypeId → Val} {rec : TypeId → Bytes → Val → Except Fault DRes} (hz : ∀ t, Room 0 (zeros t)) (hb : ∀ t, Bounded (rec t))
    (hrec : ∀ t, Grows 0 (rec t)) {fs : List Field} (hf : ∀ f ∈ fs, Zeros f.codec) : Grows 0 (structDecode (dfields zeros rec fs)) := by
  intro b v k r h hv
  cases v with
  | struct vs =>
    simp only [structDecode] at h
    simp only [Room] at hv
    have hmem : ∀ n f, fieldIndex (dfields zeros rec fs) n = some f → ∃ g ∈ fs, f.dec = codecDecode zeros rec g.codec := by
      intro n f h
      rw [fieldIndex_dfields] at h
      obtain ⟨g, hg, rfl⟩ := Option.map_eq_some_iff.1 h
      exact ⟨g, List.mem_reverse.1 (List.mem_of_find?_eq_some hg), rfl⟩
    refine loop_grows ?_ ?_ _ _ _ k _ (Nat.zero_le _) h hv
    · intro n f hf'
      obtain ⟨g, _, hg⟩ := hmem n f hf'
      rw [hg]
      exact bounded_codec _ _ hb _
    · intro n f hf'
      obtain ⟨g, hm, hg⟩ := hmem n f hf'
      rw [hg]
      exact grows_codec hz hrec _ (hf g hm)
  | _ => cases h

theorem grows_msg {env : Env} (hz : ∀ t, Room 0 (env t).zero) (hf : ∀ t, ∀ f ∈ (env t).fields, Zeros f.codec) : ∀ D t, Grows 0 (decodeMsg env D t) := by
  intro D
  induction D with
  | zero => intro t b v k r h; simp only [decodeMsg] at h; cases h
  | succ D ih =>
    intro t b v k r h hv
    rw [decodeMsg] at h
    exact grows_fields hz (bounded_msg env D) ih (hf t) b v k r h hv

end Pb.Go
