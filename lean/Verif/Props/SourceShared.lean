import Verif.Proofs.SourceShared
import Verif.Props.SourceWalk
import Verif.Props.EndToEnd
/-
C80: the whole library as text. Goroutines run the source text of type analysis on shared caches (C79); with the type info one of them has
got, the source text of `Size`, `Marshal` and `Unmarshal` and of everything they call (C77) does what the declarations, and the .proto files
they are generated from, say.
-/
namespace Pb.Props
open Pb Go Spec Cache
open Pb.Go.An (ByRef Sound DeclFits goDepth fieldDepth TextReachable walkProgram)

set_option maxRecDepth 100000

variable {D : Decls} {s : Cache.Sys} {t : TypeId} {i : Nat} {hit : List Go.V → Val → Bool} {d : Nat}

theorem _root_.Pb.Go.Got.inv (h : Got D s t i) : ∃ G, Cache.Inv D True s.state G ∧ At s.state i t := by
  obtain ⟨m, n, hm, hD, hn, hs⟩ := h.reached
  have hr := (C79_process hm hD hn h.sound s).mp hs
  obtain ⟨k, hk⟩ := h.got
  rcases h.quiet with ⟨rank, hA⟩ | hq
  · obtain ⟨G, Ps, hI⟩ := sysInv (must := True) (fun _ => hA) hr h.consistent
    exact ⟨G, hI.inv, (returned hI hk).1⟩
  · obtain ⟨G, hI, hat⟩ := settled_inv hr h.consistent hq
    exact ⟨G, hI, hat k t i hk⟩

/-- C80. `Size` of a message. -/
theorem C80_size (hG : Got D s t i) (hd : d ≤ 2 ^ 62) (v : Val) (z : Nat) (h : size (envOf D) (.msg t v) = .ok z) (hz : z < 2 ^ 64)
    (hb : Go.Below d v) :
    ∃ N, ∀ j, N ≤ j → ∀ x m, Passed m (.msg t v) x → runShared D s.state t i hit d j t!"Size" [x] m = .ok ([.int (BitVec.ofNat 64 z)], m) := by
  obtain ⟨G, hI, hat⟩ := hG.inv
  obtain ⟨N, hN⟩ := C76_size (env := infoEnv D s.state) (hit := hit) hd i v z (by rw [(shared_api hI hat).1, h]) hz hb
  refine ⟨N, fun j hj x m hx => ?_⟩
  obtain ⟨p, rfl, _, hp⟩ := hx
  exact shared_size (hN j hj p m hp)

/-- C80. `Marshal` of a message. -/
theorem C80_marshal (hG : Got D s t i) (hd : d ≤ 2 ^ 62) (hk : ∀ t, ∀ f ∈ (envOf D t).fields, ScalarKeys f.codec) (v : Val) (b : Bytes)
    (h : marshal (envOf D) (.msg t v) = .ok (.ok b)) (hl : b.length < 2 ^ 63) (hs : ∀ z, size (envOf D) (.msg t v) = .ok z → z < 2 ^ 64)
    (hb : Go.Below d v) :
    ∃ N, ∀ j, N ≤ j → ∀ x m, Passed m (.msg t v) x → runShared D s.state t i hit d j t!"Marshal" [x] m = .ok (marshalResult (.ok b), m) := by
  have hsz : ∃ z, size (envOf D) (.msg t v) = .ok z := by
    simp only [marshal] at h
    simp only [size]
    cases hq : sizeMsg (envOf D) (v.depth + 1) t v with
    | error e => rw [hq] at h; cases h
    | ok z => exact ⟨z, rfl⟩
  obtain ⟨z, hsz⟩ := hsz
  obtain ⟨G, hI, hat⟩ := hG.inv
  obtain ⟨h1, h2, _⟩ := shared_api hI hat
  obtain ⟨N, hN⟩ := C76_size (env := infoEnv D s.state) (hit := hit) hd i v z (by rw [h1, hsz]) (hs z hsz) hb
  obtain ⟨M, hM⟩ := C76_encode (env := infoEnv D s.state) (hit := hit) hd (infoEnv_fields hI (fun _ _ => sim_keys) hk) i v b
    (by rw [h2, h]) hl z (by rw [h1, hsz]) (hs z hsz) hb
  refine ⟨N + M, fun j hj x m hx => ?_⟩
  obtain ⟨p, rfl, _, hp⟩ := hx
  exact shared_marshal (hN j (by omega) p m hp) (hM j (by omega) p m hp)

/-- C80. `Unmarshal` into the message at `p`: what it leaves there, and the error. -/
theorem C80_unmarshal (hG : Got D s t i) {L : Layout} (hw : WFEnv L (envOf D)) (v w : Val) (b : Option Bytes) (e : Option ApiErr)
    (hb : (b.getD []).length < 2 ^ 57) (hbd : (b.getD []).length < d) (hv : Room (2 ^ 57) v)
    (h : unmarshal (envOf D) (b.getD []) (.msg t v) = .ok ⟨.msg t w, e⟩) :
    ∃ N, ∀ j, N ≤ j → ∀ p m, Writable p → getPath p m = .ok v →
      ∃ m', setPath w p m = .ok m' ∧
        runShared D s.state t i hit d j t!"Unmarshal" [.bytes b, .iface (some (.ptr (.struct t))) (.ptr p .uptr)] m = .ok ([errValue e], m') := by
  by_cases h0 : (b.getD []) = []
  · rw [h0] at h
    cases h
    exact ⟨0, fun j _ p m hwp hp => ⟨m, setPath_same hwp hp, shared_unmarshal_empty h0⟩⟩
  · cases b with
    | none => exact absurd rfl h0
    | some b =>
      simp only [Option.getD] at h h0 hb hbd
      obtain ⟨G, hI, hat⟩ := hG.inv
      obtain ⟨N, hN⟩ := info_decode (env := infoEnv D s.state) (hit := hit) (infoEnv_room hw)
        (infoEnv_fields hI (fun _ _ => sim_zeros) fun t f h => zeros_wf (hw.codec t f h)) i v w b e h0 hb hbd hv ((shared_api hI hat).2.2 b v w e h)
      refine ⟨N, fun j hj p m hwp hp => ?_⟩
      have hc : ¬ BitVec.ofNat 64 b.length = 0#64 := by
        intro hc
        have := congrArg BitVec.toNat hc
        simp only [BitVec.toNat_ofNat] at this
        rw [Nat.mod_eq_of_lt (by omega)] at this
        exact h0 (List.length_eq_zero_iff.mp (by simpa using this))
      obtain ⟨out, m', h1, h2, h3⟩ := hN j hj p m hwp hp
      refine ⟨m', h1, ?_⟩
      match e, h2 with
      | none, h2 => cases h2; exact shared_unmarshal_ok hc h3
      | some (.decode e), ⟨n, h2⟩ => cases h2; exact shared_unmarshal_err hc h3

/-- C80. For the struct types of a program: on every input, `Unmarshal`, run from the source in a process with any number of goroutines,
returns an error or nil. Partial: as `C03_program_safe_partial`. -/
theorem C80_program_safe_partial (hG : Got D s t i) (h : ProgramSane D) (v : Val) (hv : FitsMsg (layoutOf D) t v) (b : Option Bytes)
    (hb : (b.getD []).length < 2 ^ 57) (hbd : (b.getD []).length < d) (hr : Room (2 ^ 57) v) :
    ∃ N w e, FitsMsg (layoutOf D) t w ∧ (e = none ∨ ∃ y, e = some (.decode y)) ∧ ∀ j, N ≤ j → ∀ p m, Writable p → getPath p m = .ok v →
      ∃ m', setPath w p m = .ok m' ∧
        runShared D s.state t i hit d j t!"Unmarshal" [.bytes b, .iface (some (.ptr (.struct t))) (.ptr p .uptr)] m = .ok ([errValue e], m') := by
  obtain ⟨w, e, h1, h2, h3⟩ := C03_program_safe_partial D h (b.getD []) t v hv
  obtain ⟨N, hN⟩ := C80_unmarshal (hit := hit) hG (wf_of_sane h).2.1 v w b e hb hbd hr h1
  exact ⟨N, w, e, h2, h3, hN⟩

/-- C80. For the struct types of a program: what `Marshal`, run from the source in one process, returns is what the declarations say, and has
the length that `Size` returns; `Unmarshal` reads it in the same or another process into a new message, equal to the original. Partial: as
`C01_program_partial`, and recursive message types while an analysis is going on (`C79_false_concurrent`). -/
theorem C80_program_partial {s' : Cache.Sys} {i' : Nat} (hG : Got D s t i) (hG' : Got D s' t i') (h : ProgramOK D) (hm : MapsAlike D)
    (hd : d ≤ 2 ^ 62) (vs : List Val) (hv : FitsMsg (layoutOf D) t (.struct vs)) (hc : Canon (envOf D) (.msg t) (.ptr (.struct vs)))
    (hbl : Go.Below d (.struct vs)) (hl : ∀ n, size (envOf D) (.msg t (.struct vs)) = .ok n → n < 2 ^ 57 ∧ n < d) :
    ∃ N b w, WireMsg D (D t) vs b ∧ w.obs = (Val.struct vs).obs ∧ ∀ j, N ≤ j →
      (∀ x m, Passed m (.msg t (.struct vs)) x →
        runShared D s.state t i hit d j t!"Size" [x] m = .ok ([.int (BitVec.ofNat 64 b.length)], m) ∧
        runShared D s.state t i hit d j t!"Marshal" [x] m = .ok ([.bytes (some b), .err none], m)) ∧
      runShared D s'.state t i' hit d j t!"Unmarshal" [.bytes (some b), .iface (some (.ptr (.struct t))) (.ptr [] .uptr)] (zeroStruct (D t)) =
        .ok ([.err none], w) := by
  have hg := good_of_program h
  obtain ⟨b, h1, h2⟩ := C02_program_partial D h hm t _ hv
  have hlb := hl _ h2
  obtain ⟨w, hu, hw⟩ := C01_round_trip_partial hg t vs b hv (encOK_of_types hg (mapsSized_of_alike h hm) t _ hv) hc h1 (by omega)
  obtain ⟨N, hN⟩ := C80_size (hit := hit) hG hd _ _ h2 (by omega) hbl
  obtain ⟨M, hM⟩ := C80_marshal (hit := hit) hG hd (scalarKeys_of_program h) _ b h1 (by omega) (by rw [h2]; intro z hz; cases hz; omega) hbl
  obtain ⟨K, hK⟩ := C80_unmarshal (hit := hit) hG' hg.wf _ w (some b) none hlb.1 hlb.2 (room_mono (Nat.zero_le _) (zero_room hg.wf t)) hu
  refine ⟨N + M + K, b, w, C11_program_partial D h hm t vs b hv h1 (by omega), hw, fun j hj => ⟨fun x m hx => ⟨hN j (by omega) x m hx,
    hM j (by omega) x m hx⟩, ?_⟩⟩
  obtain ⟨m', h3, h4⟩ := hK j (by omega) [] (envOf D t).zero (by decide) rfl
  cases h3
  rwa [hg.wf.zero t, ← zeroStruct_layout] at h4

/-! ### generated programs -/

theorem _root_.Pb.Go.sound_of_accepted {f : FieldDecl} (h : DeclAccepted f) : Sound f := by
  obtain ⟨x, e, n, c, z, hx, hs, ha⟩ := h
  have single : ∀ {T : GoType}, Single T → ByRef T := by
    intro T h
    cases h with
    | scalar _ h => cases h <;> trivial
    | bytes | msg | ptr => trivial
  unfold Sound
  generalize f.ty = T at ha
  cases ha with
  | option b hb h5 h1 =>
    intro text ht
    rw [hx] at ht
    cases ht
    rw [parseStructTag_of_says hs]
    dsimp only
    cases b with
    | float32 => exact .inl (by rw [h5 rfl]; simp [fixedCodec, wtFixed32])
    | float64 => exact .inl (by rw [h1 rfl]; simp [fixedCodec, wtFixed32, wtFixed64])
    | other => exact nomatch hb
    | _ => exact .inr (by simp [optionCodec])
  | single T h => exact single h
  | repeated T h => trivial
  | map K V hK hV => exact ⟨single hK, single hV⟩

theorem genFields_shape {tracked : Bool} {name : Nat → Text} : ∀ (fs : List ProtoField) (seen : List Nat),
    (genFields tracked name seen fs).length ≤ fs.length ∧
    ∀ d ∈ genFields tracked name seen fs, d.ty = .ty .other ∨ ∃ f ∈ fs, ¬ InOneof f ∧ d = genField tracked f
  | [], _ => by simp [genFields]
  | f :: fs, seen => by
    have ih := genFields_shape (tracked := tracked) (name := name) fs
    by_cases ho : InOneof f
    · obtain ⟨i, hi⟩ := ho
      simp only [genFields, hi]
      split
      · refine ⟨by have := (ih seen).1; simp; omega, fun d hd => ?_⟩
        rcases (ih _).2 d hd with h | ⟨g, h1, h2⟩
        · exact .inl h
        · exact .inr ⟨g, by simp [h1], h2⟩
      · refine ⟨by have := (ih (i :: seen)).1; simp; omega, fun d hd => ?_⟩
        rcases List.mem_cons.mp hd with rfl | hd
        · exact .inl rfl
        · rcases (ih _).2 d hd with h | ⟨g, h1, h2⟩
          · exact .inl h
          · exact .inr ⟨g, by simp [h1], h2⟩
    · rw [genFields_field ho]
      refine ⟨by have := (ih seen).1; simp; omega, fun d hd => ?_⟩
      rcases List.mem_cons.mp hd with rfl | hd
      · exact .inr ⟨f, by simp, ho, rfl⟩
      · rcases (ih _).2 d hd with h | ⟨g, h1, h2⟩
        · exact .inl h
        · exact .inr ⟨g, by simp [h1], h2⟩

section
variable {P : Protos} {tracked : TypeId → Bool} {name : TypeId → Nat → Text}

theorem genMessage_shape (t : TypeId) : (genProgram tracked name P t).length ≤ (P t).length + 1 ∧
    ∀ d ∈ genProgram tracked name P t, d.ty = .ty .other ∨ ∃ f ∈ P t, ¬ InOneof f ∧ d = genField (tracked t) f := by
  unfold genProgram genMessage
  obtain ⟨h1, h2⟩ := genFields_shape (tracked := tracked t) (name := name t) (P t) []
  constructor
  · rw [List.length_append]
    split <;> simp <;> omega
  · intro d hd
    rcases List.mem_append.mp hd with hd | hd
    · exact h2 d hd
    · split at hd
      · simp only [List.mem_cons, List.not_mem_nil, or_false] at hd
        subst hd
        exact .inl rfl
      · simp at hd

theorem sound_gen (h : ProtosOK P) (hn : ∀ t i, PlainText (name t i)) (t : TypeId) : ∀ f ∈ genProgram tracked name P t, Sound f := by
  intro d hd
  rcases (genMessage_shape t).2 d hd with h' | ⟨f, hf, ho, rfl⟩
  · unfold Sound; rw [h']; trivial
  · exact sound_of_accepted ((sane_of_ok (genProgram_ok h tracked name hn)).accepted t _ hd ⟨rfl, by rw [genField_tag]; simp⟩)

theorem fits_gen (h : ProtosOK P) {m : Nat} (hm : ∀ t, (P t).length ≤ m) (t : TypeId) : DeclFits (genProgram tracked name P) (m + 2) (.named t) := by
  refine ⟨by have := (genMessage_shape (P := P) (tracked := tracked) (name := name) t).1; have := hm t; simp only [InfoKey.decl]; omega, fun d hd => ?_⟩
  rcases (genMessage_shape t).2 d hd with h' | ⟨f, hf, ho, rfl⟩
  · rw [h']; exact Nat.zero_le _
  · have plain : ∀ {T : GoType}, Plain T → goDepth T ≤ 1 := by intro T h; cases h <;> simp [goDepth]
    have hp := handled_plain (b := tracked t) (h.handled t f hf ho)
    revert hp
    generalize (genField (tracked t) f).ty = T
    intro hp
    cases hp with
    | opt b => simp only [fieldDepth]; omega
    | one T h => have := plain h; simp only [fieldDepth]; omega
    | many T h => have := plain h; simp only [fieldDepth, goDepth]; omega
    | map K V hK hV => have := plain hK; have := plain hV; simp only [fieldDepth, goDepth]; omega

/-- `ProtoGot P tracked name s t i`: as `Got`, with the conditions on the .proto files. -/
structure ProtoGot (P : Protos) (tracked : TypeId → Bool) (name : TypeId → Nat → Text) (s : Cache.Sys) (t : TypeId) (i : Nat) : Prop where
  reached : ∃ m n, (∀ t, (P t).length ≤ m) ∧ 3 * m + 11 ≤ n ∧ TextReachable walkProgram (genProgram tracked name P) n s
  noMixing : ∀ t ∈ s.threads, NoMixing P t.root
  quiet : (∃ rank, ProtoAcyclic P rank) ∨ Settled s
  got : ∃ k : Nat, s.threads[k]? = some ⟨t, .ret i⟩

theorem ProtoGot.got_gen (h : ProtosOK P) (hn : ∀ t i, PlainText (name t i)) (hG : ProtoGot P tracked name s t i) :
    Got (genProgram tracked name P) s t i where
  reached := by
    obtain ⟨m, n, h1, h2, h3⟩ := hG.reached
    exact ⟨m + 2, n, by omega, fits_gen h h1, by omega, h3⟩
  sound := sound_gen h hn
  consistent u hu := C40_uniform (uniform_gen h hn (hG.noMixing u hu))
  quiet := hG.quiet.imp (fun ⟨rank, hA⟩ => ⟨rank, acyclic_gen h hn hA⟩) id
  got := hG.got

/-- C80. From .proto files to bytes and back, with all of the library run from its text: in a process with any number of goroutines, whatever
messages it has used before and is using, what `Marshal` returns for a generated message is the wire format the .proto file describes, of the
length `Size` returns; and `Unmarshal`, in the same or another process, reads it into a new message, equal to the original. Missing: as in
`C56_wire_format_partial` and `C56_round_trip_partial`. -/
theorem C80_protos_partial (h : ProtosOK P) (hm : ProtoMapsAlike P) (hn : ∀ t i, PlainText (name t i)) {s' : Cache.Sys} {i' : Nat}
    (hG : ProtoGot P tracked name s t i) (hG' : ProtoGot P tracked name s' t i') (hd : d ≤ 2 ^ 62) {vs : List Val}
    (hv : FitsMsg (layoutOf (genProgram tracked name P)) t (.struct vs))
    (hc : Canon (envOf (genProgram tracked name P)) (.msg t) (.ptr (.struct vs))) (hbl : Go.Below d (.struct vs))
    (hl : ∀ n, size (envOf (genProgram tracked name P)) (.msg t (.struct vs)) = .ok n → n < 2 ^ 57 ∧ n < d) :
    ∃ N b w, ProtoMsg P [] (P t) vs b ∧ w.obs = (Val.struct vs).obs ∧ ∀ j, N ≤ j →
      (∀ x m, Passed m (.msg t (.struct vs)) x →
        runShared (genProgram tracked name P) s.state t i hit d j t!"Size" [x] m = .ok ([.int (BitVec.ofNat 64 b.length)], m) ∧
        runShared (genProgram tracked name P) s.state t i hit d j t!"Marshal" [x] m = .ok ([.bytes (some b), .err none], m)) ∧
      runShared (genProgram tracked name P) s'.state t i' hit d j t!"Unmarshal"
          [.bytes (some b), .iface (some (.ptr (.struct t))) (.ptr [] .uptr)] (zeroStruct (genProgram tracked name P t)) =
        .ok ([.err none], w) := by
  obtain ⟨N, b, w, _, hw, hr⟩ := C80_program_partial (hit := hit) (hG.got_gen h hn) (hG'.got_gen h hn) (genProgram_ok h tracked name hn)
    (mapsAlike_gen h hm hn) hd vs hv hc hbl hl
  obtain ⟨b', h1, h2⟩ := C38_wire_format_partial h hm tracked name hn t vs hv fun n hs => by have := hl n hs; omega
  obtain ⟨b'', h3, h4⟩ := C02_program_partial _ (genProgram_ok h tracked name hn) (mapsAlike_gen h hm hn) t _ hv
  rw [h1] at h3
  cases h3
  have hlb := hl _ h4
  obtain ⟨M, hM⟩ := C80_marshal (hit := hit) (hG.got_gen h hn) hd (scalarKeys_of_program (genProgram_ok h tracked name hn)) _ b' h1 (by omega)
    (by rw [h4]; intro z hz; cases hz; omega) hbl
  have e : b = b' := by
    have hx : Passed (.struct vs) (.msg t (.struct vs)) (.iface (some (.ptr (.struct t))) (.ptr [] .uptr)) := ⟨[], rfl, by decide, rfl⟩
    have e1 := ((hr (N + M) (by omega)).1 _ _ hx).2
    have e2 := hM (N + M) (by omega) _ _ hx
    rw [e1] at e2
    simpa [marshalResult] using e2
  subst e
  exact ⟨N, b, w, h2, hw, hr⟩
end

/-! ### examples -/

/-- Not a map, nor a pointer to or slice of such. -/
def noMap : Codec → Bool
  | .ptr _ c => noMap c
  | .slice _ c => noMap c
  | .map .. => false
  | _ => true

theorem scalarKeys_of_noMap : ∀ {c : Codec}, noMap c = true → ScalarKeys c
  | .ptr _ c, h => scalarKeys_of_noMap (c := c) h
  | .slice _ c, h => scalarKeys_of_noMap (c := c) h
  | .normal _, _ | .required _, _ | .option _, _ | .bytes, _ | .msg _, _ => trivial

/-- The result of a successful `Size`. -/
def sizeOut : Except Fault Nat → Option Nat
  | .ok n => some n
  | _ => none

theorem sizeOut_eq {r : Except Fault Nat} {n : Nat} (h : sizeOut r = some n) : r = .ok n := by
  cases r with
  | error => cases h
  | ok => cases h; rfl

/-- C80 without `quiet` is false: while a goroutine that runs the text of type analysis is at work on a message type that contains itself,
`Marshal`, run from its text by another goroutine, returns less than it should, and no error. -/
theorem C80_false_concurrent : ∃ (s : Cache.Sys) (i N : Nat), TextReachable walkProgram mutualDecls 11 s ∧ s.threads[1]? = some ⟨1, .ret i⟩ ∧
    (∀ r, Consistent mutualDecls r) ∧ marshal (envOf mutualDecls) (.msg 1 mutualMsg) = .ok (.ok [0x0a#8, 0x02#8, 0x10#8, 0x01#8]) ∧
    ∀ j, N ≤ j → runShared mutualDecls s.state 1 i hit 100 j t!"Marshal" [.iface (some (.ptr (.struct 1))) (.ptr [] .uptr)] mutualMsg =
      .ok ([.bytes (some [0x0a#8, 0x00#8]), .err none], mutualMsg) := by
  have h := reach_call 9 9 1 (reach_call 14 9 0 (Reachable.init (D := mutualDecls)))
  have ht := (C79_process (n := 11) (by decide) mutual_fits (by decide) mutual_sound _).mpr h
  generalize hs : (runN 9 (cachedStructInfoOf mutualDecls 9 1) (runN 14 (cachedStructInfoOf mutualDecls 9 0) State.init).snd).snd = s at ht
  have hk : ∀ i, ∀ f ∈ (infoEnv mutualDecls s i).fields, ScalarKeys f.codec := by
    have hl : s.infos.length = 2 := by rw [← hs]; decide +kernel
    have h0 : (infoEnv mutualDecls s 0).fields.all (fun f => noMap f.codec) = true := by rw [← hs]; decide +kernel
    have h1 : (infoEnv mutualDecls s 1).fields.all (fun f => noMap f.codec) = true := by rw [← hs]; decide +kernel
    intro i f hf
    match i with
    | 0 => exact scalarKeys_of_noMap (List.all_eq_true.mp h0 f hf)
    | 1 => exact scalarKeys_of_noMap (List.all_eq_true.mp h1 f hf)
    | i + 2 =>
      unfold infoEnv at hf
      rw [List.getElem?_eq_none (by omega)] at hf
      cases hf
  have hz : size (infoEnv mutualDecls s) (.msg 1 mutualMsg) = .ok 2 := sizeOut_eq (by rw [← hs]; decide +kernel)
  have hm : marshal (infoEnv mutualDecls s) (.msg 1 mutualMsg) = .ok (.ok [0x0a#8, 0x00#8]) := output_eq (by rw [← hs]; decide +kernel)
  have hb : Go.Below 100 mutualMsg := by simp [mutualMsg, Go.Below, Belows]
  obtain ⟨N, hN⟩ := C76_size (hit := hit) (by decide) 1 mutualMsg 2 hz (by decide) hb
  obtain ⟨M, hM⟩ := C76_encode (hit := hit) (by decide) hk 1 mutualMsg _ hm (by decide) 2 hz (by decide) hb
  refine ⟨_, 1, N + M, ht, ?_, fun r => (mutualDecls_uniform r).consistent, output_eq (by decide +kernel), fun j hj => ?_⟩
  · exact congrArg (fun p => some (Thread.mk 1 p)) (returns_eq (by decide +kernel))
  · exact shared_marshal (hN j (by omega) [] _ rfl) (hM j (by omega) [] _ rfl)

/-- Two goroutines have used the recursive type of `sampleProto`, running the text of type analysis. -/
theorem sampleProto_got : ∃ s, ProtoGot (oneMessage sampleProto) (fun _ => false) (fun _ _ => "choice".toList) s 0 0 := by
  have h := reach_call 99 9 0 (reach_call 99 9 0 (Reachable.init (D := generated sampleProto)))
  have e : ∀ p q : Cache.Prog Nat, p = .ret 0 → q = .ret 0 → [Thread.mk 0 p] ++ [Thread.mk 0 q] = [⟨0, .ret 0⟩, ⟨0, .ret 0⟩] := by
    rintro p q rfl rfl; rfl
  have e := e (runN 99 (cachedStructInfoOf (generated sampleProto) 9 0) State.init).1
    (runN 99 (cachedStructInfoOf (generated sampleProto) 9 0) (runN 99 (cachedStructInfoOf (generated sampleProto) 9 0) State.init).2).1
    (returns_eq (by decide +kernel)) (returns_eq (by decide +kernel))
  have hl : ∀ t, (oneMessage sampleProto t).length ≤ 7
    | 0 => by decide
    | _ + 1 => by simp [oneMessage]
  have hn : PlainText "choice".toList := by decide
  refine ⟨_, ⟨7, 32, hl, by decide, (C79_process (m := 9) (by decide) (fits_gen sampleProto_ok hl) (by decide)
    (sound_gen sampleProto_ok fun _ _ => hn) _).mpr h⟩, fun t _ => sampleProto_noMixing _, .inr ?_, 0, ?_⟩
  · intro t ht
    replace ht := (congrArg (t ∈ ·) e).mp ht
    simp only [List.mem_cons, List.not_mem_nil, or_false] at ht
    rcases ht with rfl | rfl <;> exact ⟨0, rfl⟩
  · exact congrArg (fun l : List Thread => l[0]?) e

example : ∃ s N b w, ProtoMsg (oneMessage sampleProto) [] sampleProto sampleValue b ∧ w.obs = (Val.struct sampleValue).obs ∧ ∀ j, N ≤ j →
    runShared (generated sampleProto) s 0 0 hit 100 j t!"Marshal" [.iface (some (.ptr (.struct 0))) (.ptr [] .uptr)] (.struct sampleValue) =
      .ok ([.bytes (some b), .err none], .struct sampleValue) ∧
    runShared (generated sampleProto) s 0 0 hit 100 j t!"Unmarshal" [.bytes (some b), .iface (some (.ptr (.struct 0))) (.ptr [] .uptr)]
      (zeroStruct (generated sampleProto 0)) = .ok ([.err none], w) := by
  obtain ⟨s, hG⟩ := sampleProto_got
  have hz : size (envOf (generated sampleProto)) (.msg 0 (.struct sampleValue)) = .ok 32 := sizeOut_eq (by decide +kernel)
  have hbl : Go.Below 100 (.struct sampleValue) := by simp [sampleValue, Go.Below, Belows, BelowMap]
  obtain ⟨N, b, w, hp, hw, h⟩ := C80_protos_partial (hit := hit) (d := 100) sampleProto_ok sampleProto_alike (fun _ _ => by decide) hG hG (by decide)
    sampleValue_fits sampleValue_canon hbl (fun n hn => by cases hz.symm.trans hn; decide)
  have hx : Passed (.struct sampleValue) (.msg 0 (.struct sampleValue)) (.iface (some (.ptr (.struct 0))) (.ptr [] .uptr)) :=
    ⟨[], rfl, by decide, rfl⟩
  exact ⟨_, N, b, w, hp, hw, fun j hj => ⟨((h j hj).1 _ _ hx).2, (h j hj).2⟩⟩

end Pb.Props
