import Verif.Proofs.SourceSkip
import Verif.Proofs.Depth
import Verif.Proofs.Width
import Verif.Model.Pool
/-
Running decode of struct.go: the loop.
-/
namespace Pb.Go
open Tree

set_option linter.unusedSimpArgs false

variable {X : Calls} {d : Nat} (k : Nat) {m : Val}

theorem tag_bounds (b : Bytes) : (decodeTag b).1 < 2 ^ 61 ∧ (decodeTag b).2.1 < 8 := by
  unfold decodeTag
  generalize decodeVarint b = r
  obtain ⟨v, n, e⟩ := r
  have hv := v.isLt
  have h7 := Nat.and_two_pow_sub_one_eq_mod v.toNat 3
  simp only [Nat.reducePow, Nat.reduceSub] at h7
  simp only [BitVec.toNat_ushiftRight, BitVec.toNat_and, Nat.shiftRight_eq_div_pow, BitVec.reduceToNat]
  constructor <;> omega

/-- Reading a tag. -/
theorem step_tag {fs : List Field} {b : Bytes} {off : Nat} {p : List Step} (hb : b.length < 2 ^ 60) (ho : off ≤ b.length)
    {num wt n : Nat} {e : Option Err} (h : decodeTag (b.drop off) = (num, wt, n, e)) :
    match (generalizing := false) e with
    | none => exec (invoke library X d (k + 2)) d (decodeFrom 0) ⟨loopVars off b p fs, 0, m⟩
        = exec (invoke library X d (k + 2)) d (decodeFrom 3) ⟨tagVars none n wt num (loopVars (off + n) b p fs), 4, m⟩
    | some e => Returns m e (exec (invoke library X d (k + 2)) d (decodeFrom 0) ⟨loopVars off b p fs, 0, m⟩) := by
  have hbody : decodeFrom 0 =
    (.seq (.define (.arg (.ident t!"fieldNumber") (.arg (.ident t!"wireType") (.arg (.ident t!"n") (.arg (.ident t!"err") .none)))) (.call (.ident t!"decodeTag") (.arg (.slice (.ident t!"b") (.ident t!"offset") .none) .none)))
    (.seq (.opAssign .add (.ident t!"offset") (.ident t!"n"))
    (.seq (.ite .skip (.bin .ne (.ident t!"err") (.ident t!"nil")) (.seq (.ret (.arg (.ident t!"offset") (.arg (.ident t!"err") .none))) .skip) .skip)
    (decodeFrom 3)))) := rfl
  rw [hbody]
  generalize decodeFrom 3 = R
  have hsl := slice_from hb ho
  have hdl : (b.drop off).length < 2 ^ 60 := by rw [List.length_drop]; omega
  have hr := run_decodeTag (X := X) (d := d) k (m := m) (b.drop off) hdl
  have ha : BitVec.ofNat 64 off + BitVec.ofNat 64 n = BitVec.ofNat 64 (off + n) := (BitVec.ofNat_add ..).symm
  rw [h] at hr
  cases e with
  | none => go_step [tagVars, loopVars, hsl, hr, ha]
  | some e => go_step [tagVars, loopVars, hsl, hr, ha, returns_mk]

/-- The field of a number, for the program and for the model. -/
theorem find_field {fs : List Field} {num : Nat} (hn : num < 2 ^ 61) :
    fs.reverse.find? (fun f : Field => decide (BitVec.ofNat 64 num = f.tag.wiretag >>> 3)) = Pb.lookup fs num := by
  unfold Pb.lookup
  congr 1
  funext f
  congr 1
  rw [eq_iff_iff]
  unfold Spec.keyNumber
  constructor
  · intro h
    have := congrArg BitVec.toNat h
    rw [BitVec.toNat_ofNat, BitVec.toNat_ushiftRight, Nat.shiftRight_eq_div_pow] at this
    omega
  · intro h
    apply BitVec.eq_of_toNat_eq
    rw [BitVec.toNat_ofNat, BitVec.toNat_ushiftRight, Nat.shiftRight_eq_div_pow]
    omega

/-- Looking for the field. -/
theorem step_find {fs : List Field} {b : Bytes} {off num wt n : Nat} {p : List Step} (hn : num < 2 ^ 61) :
    exec (invoke library X d (k + 2)) d (decodeFrom 3) ⟨tagVars none n wt num (loopVars off b p fs), 4, m⟩
      = exec (invoke library X d (k + 2)) d (decodeFrom 4)
          ⟨(t!"f", .field (Pb.lookup fs num)) :: tagVars none n wt num (loopVars off b p fs), 5, m⟩ := by
  have hbody : decodeFrom 3 =
    (.seq (.define (.arg (.ident t!"f") .none) (.index (.sel (.ident t!"info") t!"fieldIndex") (.ident t!"fieldNumber"))) (decodeFrom 4)) := rfl
  rw [hbody]
  generalize decodeFrom 4 = R
  go_step [tagVars, loopVars, find_field hn]

/-- Skipping a field. -/
theorem step_skip {fs : List Field} {b : Bytes} {off num wt n off' : Nat} {e : Option Err} {p : List Step} (hb : b.length < 2 ^ 60)
    (ho : off ≤ b.length) (hwt : wt < 8) (hnum : num < 2 ^ 64) (h : skipUnknown b off wt = .ok (off', e)) :
    match (generalizing := false) e with
    | none => exec (invoke library X d (k + 1)) d (decodeFrom 4) ⟨(t!"f", .field none) :: tagVars none n wt num (loopVars off b p fs), 5, m⟩
        = .ok (.cont, ⟨(t!"f", .field none) :: tagVars none n wt num (loopVars off' b p fs), 5, m⟩)
    | some e => Returns m (.field num wt e)
        (exec (invoke library X d (k + 1)) d (decodeFrom 4) ⟨(t!"f", .field none) :: tagVars none n wt num (loopVars off b p fs), 5, m⟩) := by
  have hbody : decodeFrom 4 =
    (.seq (.ite .skip (.bin .eq (.ident t!"f") (.ident t!"nil"))
    (.seq (.define (.arg (.ident t!"skip") .none) (.num 0))
    (.seq (.define (.arg (.ident t!"size") .none) (.call (.ident t!"uint64") (.arg (.num 0) .none)))
    (.seq skipSwitch skipTail)))
    .skip) (decodeFrom 5)) := rfl
  rw [hbody]
  rw [skipUnknown_split] at h
  cases hs : skipLen b off wt with
  | error f => rw [hs] at h; cases h
  | ok r =>
    obtain ⟨sk, e0⟩ := r
    rw [hs] at h
    obtain ⟨hsk, sz, h1⟩ := skip_switch (X := X) (d := d) (m := m) (fs := fs) (p := p) (n := n) (num := num) (blk := 2) k hb ho hwt hs
    have h2 := skip_tail (X := X) (d := d) (m := m) (fs := fs) (p := p) (n := n) (num := num) (blk := 2) (e := e0) (sz := sz) k hb ho hwt hnum hsk
    simp only [Except.bind] at h
    simp only [skipVars, tagVars, loopVars] at h1 h2
    generalize skipSwitch = A at h1 ⊢
    generalize skipTail = T at h2 ⊢
    generalize decodeFrom 5 = R
    split at h
    · rename_i hl
      cases h
      simp only [hl, if_true] at h2
      cases e with
      | none => go_step [tagVars, loopVars, h1, h2]
      | some e => go_step [tagVars, loopVars, h1, h2, returns_mk]
    · rename_i hl
      cases h
      simp only [hl, if_false] at h2
      go_step [tagVars, loopVars, h1, h2, returns_mk]

/-- The wire type of a field, for the program and for the model. -/
theorem wire_field {w : U64} {wt : Nat} (hwt : wt < 8) : BitVec.ofNat 64 wt = w &&& 7#64 ↔ wt = Spec.keyType w := by
  have h7 := Nat.and_two_pow_sub_one_eq_mod w.toNat 3
  simp only [Nat.reducePow, Nat.reduceSub] at h7
  unfold Spec.keyType
  constructor
  · intro h
    have := congrArg BitVec.toNat h
    simp only [BitVec.toNat_ofNat, BitVec.toNat_and, Nat.reducePow, Nat.reduceMod, h7] at this
    omega
  · intro h
    apply BitVec.eq_of_toNat_eq
    simp only [BitVec.toNat_ofNat, BitVec.toNat_and, Nat.reducePow, Nat.reduceMod, h7]
    omega

/-- A known field: the wire type is checked. -/
theorem step_known {fs : List Field} {b : Bytes} {off num wt n : Nat} {f : Field} {p : List Step} (hwt : wt < 8) (hnum : num < 2 ^ 64) :
    (wt = Spec.keyType f.tag.wiretag →
      exec (invoke library X d (k + 1)) d (decodeFrom 4) ⟨(t!"f", .field (some f)) :: tagVars none n wt num (loopVars off b p fs), 5, m⟩
        = exec (invoke library X d (k + 1)) d (decodeFrom 7) ⟨dataVars none f n wt num (loopVars off b p fs), 6, m⟩) ∧
    (wt ≠ Spec.keyType f.tag.wiretag → Returns m (.field num wt (.expectedWireType (Spec.keyType f.tag.wiretag)))
      (exec (invoke library X d (k + 1)) d (decodeFrom 4) ⟨(t!"f", .field (some f)) :: tagVars none n wt num (loopVars off b p fs), 5, m⟩)) := by
  have hbody : ∃ B, decodeFrom 4 =
    (.seq (.ite .skip (.bin .eq (.ident t!"f") (.ident t!"nil")) B .skip)
    (.seq (.ite .skip (.bin .ne (.ident t!"wireType") (.call (.sel (.ident t!"f") t!"wireType") .none))
    (.seq (.ret (.arg (.ident t!"offset") (.arg (.call (.ident t!"fieldError") (.arg (.ident t!"fieldNumber") (.arg (.ident t!"wireType") (.arg (.call (.sel (.ident t!"fmt") t!"Errorf") (.arg (.str t!"expected wire type %d") (.arg (.call (.sel (.ident t!"f") t!"wireType") .none) .none))) .none)))) .none)))
    .skip)
    .skip)
    (.seq (.var t!"data" (.un .sliceOf (.ident t!"byte")))
    (decodeFrom 7)))) := ⟨_, rfl⟩
  obtain ⟨B, hbody⟩ := hbody
  rw [hbody]
  generalize decodeFrom 7 = R
  have e1 : wt % 18446744073709551616 = wt := Nat.mod_eq_of_lt (by omega)
  have e2 : num % 18446744073709551616 = num := Nat.mod_eq_of_lt (by omega)
  have hw := wire_field (w := f.tag.wiretag) hwt
  have h7 := Nat.and_two_pow_sub_one_eq_mod f.tag.wiretag.toNat 3
  simp only [Nat.reducePow, Nat.reduceSub] at h7
  constructor
  · intro h
    have hw := hw.2 h
    go_step [dataVars, tagVars, loopVars, run_wireType, hw]
  · intro h
    have hw : ¬ BitVec.ofNat 64 wt = f.tag.wiretag &&& 7#64 := fun h' => h (hw.1 h')
    go_step [dataVars, tagVars, loopVars, run_wireType, run_fieldError, e1, e2, hw, Spec.keyType, returns_mk, h7]

/-- Decoding a field. -/
theorem step_decode {fs : List Field} {b data : Bytes} {off num wt n : Nat} {f : Field} {p : List Step} {v : Val} {r : DRes} (hwt : wt < 8)
    (hnum : num < 2 ^ 64) (hw : Writable p) (hv : getPath (p ++ [.slot f.offset]) m = .ok v)
    (h : decodeOut (p ++ [.slot f.offset]) m (.ok r)
      (X (some (.codec f.codec)) t!"decode" [.bytes (some data), .ptr (p ++ [.slot f.offset]) .uptr] m)) :
    ∃ m', setPath r.val (p ++ [.slot f.offset]) m = .ok m' ∧
    match (generalizing := false) r with
    | .ok _ n' => exec (invoke library X d (k + 1)) d (decodeFrom 8) ⟨dataVars (some data) f n wt num (loopVars off b p fs), 6, m⟩
      = .ok (.next, ⟨dataVars (some data) f n' wt num (loopVars (off + n') b p fs), 6, m'⟩)
    | .err _ e => Returns m' (.field num wt e)
        (exec (invoke library X d (k + 1)) d (decodeFrom 8) ⟨dataVars (some data) f n wt num (loopVars off b p fs), 6, m⟩) := by
  obtain ⟨m', hm⟩ := setPath_ok (x := r.val) (hw.snoc rfl) hv
  refine ⟨m', hm, ?_⟩
  have hbody : decodeFrom 8 =
    (.seq (.assign (.arg (.ident t!"n") (.arg (.ident t!"err") .none)) (.arg (.call (.sel (.sel (.ident t!"f") t!"codec") t!"decode") (.arg (.ident t!"data") (.arg (.call (.sel (.ident t!"f") t!"pointer") (.arg (.ident t!"p") .none)) .none))) .none))
    (.seq (.opAssign .add (.ident t!"offset") (.ident t!"n"))
    (.seq (.ite .skip (.bin .ne (.ident t!"err") (.ident t!"nil"))
    (.seq (.ret (.arg (.ident t!"offset") (.arg (.call (.ident t!"fieldError") (.arg (.ident t!"fieldNumber") (.arg (.ident t!"wireType") (.arg (.ident t!"err") .none)))) .none)))
    .skip)
    .skip)
    .skip))) := rfl
  rw [hbody]
  have e1 : wt % 18446744073709551616 = wt := Nat.mod_eq_of_lt (by omega)
  have e2 : num % 18446744073709551616 = num := Nat.mod_eq_of_lt (by omega)
  cases r with
  | ok v' n' =>
    simp only [decodeOut, DRes.val] at h hm
    rw [hm] at h
    have ha : BitVec.ofNat 64 off + BitVec.ofNat 64 n' = BitVec.ofNat 64 (off + n') := (BitVec.ofNat_add ..).symm
    go_step [dataVars, tagVars, loopVars, run_pointer, run_codec, h, ha]
  | err v' e =>
    simp only [decodeOut, DRes.val] at h hm
    obtain ⟨i, h⟩ := h
    rw [hm] at h
    go_step [dataVars, tagVars, loopVars, run_pointer, run_codec, h, run_fieldError, e1, e2, returns_mk]

/-! ### sizes of slices -/

theorem smalls_iff {vs : List Val} : Smalls vs ↔ ∀ v ∈ vs, Small v := by
  induction vs with
  | nil => simp [Smalls]
  | cons v vs ih => simp [Smalls, ih]

theorem smalls_set {vs : List Val} {i : Nat} {v w : Val} (hi : vs[i]? = some v) (hvw : Small w → Small v) (h : Smalls (vs.set i w)) : Smalls vs := by
  rw [smalls_iff] at h ⊢
  intro x hx
  obtain ⟨j, hj⟩ := List.mem_iff_getElem?.1 hx
  by_cases hij : i = j
  · subst hij
    rw [hi] at hj
    cases hj
    obtain ⟨hl, _⟩ := List.getElem?_eq_some_iff.1 hi
    exact hvw (h w (List.mem_iff_getElem?.2 ⟨i, by simp [hl]⟩))
  · exact h x (List.mem_iff_getElem?.2 ⟨j, by rw [List.getElem?_set_ne hij]; exact hj⟩)

/-- Decoding does not make slices smaller. -/
def Keeps (dec : Bytes → Val → Except Fault DRes) : Prop := ∀ b v r, dec b v = .ok r → Small r.val → Small v

theorem loop_keeps {idx : Nat → Option DField} {b : Bytes} (hk : ∀ n f, idx n = some f → Keeps f.dec) : ∀ (fuel off : Nat) (vs : List Val) (r : DRes),
    structLoop idx b fuel off vs = .ok r → Small r.val → Small (.struct vs) := by
  intro fuel
  induction fuel with
  | zero =>
    intro off vs r h hs
    unfold structLoop at h
    split at h
    · cases h
    · cases h; exact hs
  | succ fuel ih =>
    intro off vs r h hs
    unfold structLoop at h
    split at h
    · cases hg : goFrom b off with
      | error f => simp only [hg, bind, Except.bind] at h; cases h
      | ok c =>
        simp only [hg, bind, Except.bind, pure, Except.pure] at h
        generalize decodeTag c = t at h
        obtain ⟨num, wt, n, e⟩ := t
        cases e with
        | some e => cases h; exact hs
        | none =>
          simp only at h
          cases hf : idx num with
          | none =>
            rw [hf] at h
            cases hu : skipUnknown b (off + n) wt with
            | error f => simp only [hu] at h; cases h
            | ok u =>
              obtain ⟨o, e⟩ := u
              simp only [hu] at h
              cases e with
              | some e => cases h; exact hs
              | none => exact ih _ _ _ h hs
          | some f =>
            simp only [hf] at h
            split at h
            · cases h; exact hs
            · cases hd : fieldData b (off + n) wt with
              | error f => simp only [hd] at h; cases h
              | ok u =>
                simp only [hd] at h
                cases u with
                | error e => cases h; exact hs
                | ok data =>
                  simp only [slotOf] at h
                  cases hv : vs[f.offset]? with
                  | none => rw [hv] at h; cases h
                  | some v =>
                    simp only [hv] at h
                    cases hr : f.dec data v with
                    | error f => simp only [hr] at h; cases h
                    | ok r' =>
                      simp only [hr] at h
                      cases r' with
                      | ok v' n' => exact smalls_set hv (hk _ _ hf _ _ _ hr) (ih _ _ _ h hs)
                      | err v' e => cases h; exact smalls_set hv (hk _ _ hf _ _ _ hr) hs
    · cases h; exact hs

theorem skipUnknown_bound {b : Bytes} {off wt off' : Nat} {e : Option Err} (h : skipUnknown b off wt = .ok (off', e)) : off' ≤ b.length := by
  rw [skipUnknown_split] at h
  cases hs : skipLen b off wt with
  | error f => rw [hs] at h; cases h
  | ok r =>
    rw [hs] at h
    simp only [Except.bind] at h
    split at h
    · cases h; assumption
    · cases h; exact Nat.le_refl _

/-! ### the loop -/

/-- What the loop does. -/
def LoopOut (b : Bytes) (p : List Step) (fs : List Field) (blk : Nat) (m : Val) (r : DRes) (out : Except Fault (Flow × State)) : Prop :=
  ∃ m', setPath r.val p m = .ok m' ∧
    match r with
    | .ok _ n => out = .ok (.next, ⟨loopVars n b p fs, blk, m'⟩)
    | .err _ e => Returns m' e out

def decodeCond : Expr := .bin .lt (.ident t!"offset") (.call (.ident t!"len") (.arg (.ident t!"b") .none))

theorem returns_block {e : Err} {body : State → Except Fault (Flow × State)} {s : State} (h : Returns m e (body { s with block := 0 })) :
    Returns m e (inBlock body s) := by
  obtain ⟨i, t, h1, h2⟩ := h
  exact ⟨i, ⟨t.vars.drop (t.vars.length - s.vars.length), s.block, t.mem⟩, by unfold inBlock; rw [h1]; rfl, h2⟩

theorem returns_seq {e : Err} {C : Calls} {a r : Stmt} {s : State} (h : Returns m e (exec C d a s)) : Returns m e (exec C d (.seq a r) s) := by
  obtain ⟨i, t, h1, h2⟩ := h
  exact ⟨i, _, by rw [exec, h1]; rfl, h2⟩

/-- One iteration that returns. -/
theorem returns_loop {e : Err} {c : State → Except Fault (V × Val)} {body post : State → Except Fault (Flow × State)} {n : Nat} {s : State}
    (hc : c s = .ok (.bool true, s.mem)) (h : Returns m e (body s)) : Returns m e (loopN c body post (n + 1) s) := by
  obtain ⟨i, t, h1, h2⟩ := h
  exact ⟨i, t, by rw [loopN, hc]; simp only [bind, Except.bind, truth, h1, if_true, pure, Except.pure], h2⟩

/-- One iteration that does not return. -/
theorem next_loop {c : State → Except Fault (V × Val)} {body post : State → Except Fault (Flow × State)} {n : Nat} {s t : State} {f : Flow}
    (hc : c s = .ok (.bool true, s.mem)) (hf : f = .next ∨ f = .cont) (h : body s = .ok (f, t)) (hp : post t = .ok (.next, t)) :
    loopN c body post (n + 1) s = loopN c body post n t := by
  rw [loopN, hc]
  simp only [bind, Except.bind, truth, h, if_true]
  rcases hf with rfl | rfl <;> simp only [hp]

theorem cond_eq {C : Calls} {fs : List Field} {b : Bytes} {off : Nat} {p : List Step} (hb : b.length < 2 ^ 60) (ho : off ≤ b.length) :
    eval C (loopVars off b p fs) decodeCond m = .ok (.bool (decide (off < b.length)), m) := by
  have hs := slt_ofNat (a := off) (b := b.length) (by omega) (by omega)
  go_step [decodeCond, loopVars, hs]

theorem decode_loop {fs : List Field} {b : Bytes} {p : List Step} {zeros : TypeId → Val} {rec : TypeId → Bytes → Val → Except Fault DRes}
    (hb : b.length < 2 ^ 60) (hw : Writable p) (hbd : ∀ f ∈ fs, Bounded (codecDecode zeros rec f.codec))
    (hk : ∀ f ∈ fs, Keeps (codecDecode zeros rec f.codec))
    (hX : ∀ f ∈ fs, ∀ data v m r, data.length ≤ b.length → getPath (p ++ [.slot f.offset]) m = .ok v → codecDecode zeros rec f.codec data v = .ok r →
      Small r.val → decodeOut (p ++ [.slot f.offset]) m (.ok r)
        (X (some (.codec f.codec)) t!"decode" [.bytes (some data), .ptr (p ++ [.slot f.offset]) .uptr] m)) :
    ∀ (fuel off d' : Nat) (vs : List Val) (m : Val) (r : DRes), fuel < d' → off ≤ b.length → getPath p m = .ok (.struct vs) →
      structLoop (fieldIndex (dfields zeros rec fs)) b fuel off vs = .ok r → Small r.val →
      LoopOut b p fs 0 m r (loopN (fun s => eval (invoke library X d (k + 2)) s.vars decodeCond s.mem)
        (inBlock (exec (invoke library X d (k + 2)) d (decodeFrom 0))) (exec (invoke library X d (k + 2)) d .skip) d' ⟨loopVars off b p fs, 0, m⟩) := by
  have hks : ∀ n f, fieldIndex (dfields zeros rec fs) n = some f → Keeps f.dec := by
    intro n f hf
    rw [fieldIndex_dfields] at hf
    simp only [Option.map_eq_some_iff] at hf
    obtain ⟨g, hg, rfl⟩ := hf
    exact hk g (lookup_mem hg).1
  intro fuel
  induction fuel with
  | zero =>
    intro off d' vs m r hd ho hp h hs
    obtain ⟨d', rfl⟩ : ∃ j, d' = j + 1 := ⟨d' - 1, by omega⟩
    unfold structLoop at h
    split at h
    · cases h
    · rename_i hlt
      cases h
      refine ⟨m, setPath_same hw hp, ?_⟩
      simp only [loopN, cond_eq hb ho, bind, Except.bind, truth, hlt]
      rfl
  | succ fuel ih =>
    intro off d' vs m r hd ho hp h hs
    obtain ⟨d', rfl⟩ : ∃ j, d' = j + 1 := ⟨d' - 1, by omega⟩
    unfold structLoop at h
    split at h
    · rename_i hlt
      have hc : (fun s : State => eval (invoke library X d (k + 2)) s.vars decodeCond s.mem) ⟨loopVars off b p fs, 0, m⟩ = .ok (.bool true, m) := by
        simp only [cond_eq hb ho, hlt, decide_true]
      rw [goFrom_eq ho] at h
      simp only [bind, Except.bind, pure, Except.pure] at h
      have htb := tag_bounds (b.drop off)
      cases htg : decodeTag (b.drop off) with
      | mk num t =>
      obtain ⟨wt, n, e⟩ := t
      rw [htg] at h htb
      obtain ⟨hnum, hwt⟩ := htb
      simp only at hnum hwt
      have hn := decodeTag_le htg
      rw [List.length_drop] at hn
      have h1 := step_tag (X := X) (d := d) (m := m) (fs := fs) (p := p) k hb ho htg
      cases e with
      | some e =>
        cases h
        exact ⟨m, setPath_same hw hp, returns_loop hc (returns_block h1)⟩
      | none =>
        simp only at h h1
        rw [step_find k hnum] at h1
        rw [fieldIndex_dfields] at h
        cases hf : Pb.lookup fs num with
        | none =>
          simp only [hf, Option.map_none] at h
          rw [hf] at h1
          cases hu : skipUnknown b (off + n) wt with
          | error f => simp only [hu] at h; cases h
          | ok u =>
            obtain ⟨o, e⟩ := u
            simp only [hu] at h
            have h2 := step_skip (X := X) (d := d) (m := m) (fs := fs) (p := p) (n := n) (num := num) (k + 1) hb (by omega) hwt (by omega) hu
            cases e with
            | some e =>
              cases h
              simp only [← h1] at h2
              exact ⟨m, setPath_same hw hp, returns_loop hc (returns_block h2)⟩
            | none =>
              simp only at h
              rw [← fieldIndex_dfields] at h
              simp only [← h1] at h2
              rw [next_loop (f := .cont) (t := ⟨loopVars o b p fs, 0, m⟩) hc (.inr rfl) (by rw [inBlock_mk, h2]; rfl) rfl]
              exact ih _ _ _ _ _ (by omega) (skipUnknown_bound hu) hp h hs
        | some f =>
          have hfm := (lookup_mem hf).1
          simp only [hf, Option.map_some, toD] at h
          rw [hf] at h1
          have h2 := step_known (X := X) (d := d) (m := m) (fs := fs) (b := b) (off := off + n) (p := p) (n := n) (num := num) (f := f) (k + 1) hwt (by omega)
          split at h
          · rename_i hne
            cases h
            have h2 := h2.2 hne
            rw [← h1] at h2
            exact ⟨m, setPath_same hw hp, returns_loop hc (returns_block h2)⟩
          · rename_i hne
            rw [h2.1 (Decidable.not_not.1 hne)] at h1
            cases hd' : fieldData b (off + n) wt with
            | error f => simp only [hd'] at h; cases h
            | ok u =>
              simp only [hd'] at h
              have h3 := data_switch (X := X) (d := d) (m := m) (fs := fs) (p := p) (n := n) (num := num) (f := f) (blk := 6) (k + 1) hb (by omega) hwt (by omega) hd'
              have h7 : decodeFrom 7 = .seq dataSwitch (decodeFrom 8) := rfl
              rw [h7] at h1
              cases u with
              | error e =>
                cases h
                have h3 := returns_seq (r := decodeFrom 8) h3
                rw [← h1] at h3
                exact ⟨m, setPath_same hw hp, returns_loop hc (returns_block h3)⟩
              | ok data =>
                simp only at h3
                simp only [slotOf] at h
                rw [exec, h3] at h1
                simp only [bind, Except.bind] at h1
                have hdl := fieldData_len (by omega) hd'
                cases hv : vs[f.offset]? with
                | none => rw [hv] at h; cases h
                | some v =>
                  simp only [hv] at h
                  have hgv : getPath (p ++ [.slot f.offset]) m = .ok v := by
                    rw [getPath_append hp]; simp only [getPath, hv]
                  have hset : ∀ x, setPath x (p ++ [.slot f.offset]) m = setPath (.struct (vs.set f.offset x)) p m := fun x =>
                    setPath_append (by simp only [setPath, hv]) hp
                  cases hr : codecDecode zeros rec f.codec data v with
                  | error f => simp only [hr] at h; cases h
                  | ok r' =>
                    simp only [hr] at h
                    have hsm : Small r'.val := by
                      obtain ⟨hl, _⟩ := List.getElem?_eq_some_iff.1 hv
                      have hx : ∀ x, Small (.struct (vs.set f.offset x)) → Small x := fun x hx =>
                        smalls_iff.1 hx x (List.mem_iff_getElem?.2 ⟨f.offset, by simp [hl]⟩)
                      cases r' with
                      | ok v' n' =>
                        simp only at h
                        rw [← fieldIndex_dfields] at h
                        exact hx _ (loop_keeps hks _ _ _ _ h hs)
                      | err v' e => cases h; exact hx _ hs
                    obtain ⟨m', hm, h4⟩ := step_decode (d := d) (fs := fs) (b := b) (off := off + n) (n := n) (k + 1) hwt (show num < 2 ^ 64 by omega) hw hgv
                      (hX f hfm data v m r' (by omega) hgv hr hsm)
                    rw [hset] at hm
                    obtain ⟨hg, hy⟩ := setPath_get hm
                    cases r' with
                    | ok v' n' =>
                      simp only at h h4
                      have hn' := hbd f hfm _ _ _ _ hr
                      rw [← fieldIndex_dfields] at h
                      rw [← h1] at h4
                      rw [next_loop (f := .next) (t := ⟨loopVars (off + n + n') b p fs, 0, m'⟩) hc (.inl rfl) (by rw [inBlock_mk, h4]; rfl) rfl]
                      obtain ⟨m'', hm'', ho''⟩ := ih (off + n + n') d' _ m' r (by omega) (by omega) hg h hs
                      exact ⟨m'', by rw [← hy]; exact hm'', ho''⟩
                    | err v' e =>
                      cases h
                      simp only at h4
                      rw [← h1] at h4
                      exact ⟨m', hm, returns_loop hc (returns_block h4)⟩
    · rename_i hlt
      cases h
      refine ⟨m, setPath_same hw hp, ?_⟩
      simp only [loopN, cond_eq hb ho, bind, Except.bind, truth, hlt]
      rfl

theorem run_decode {fs : List Field} {b : Bytes} {p : List Step} {v : Val} {r : DRes} {zeros : TypeId → Val}
    {rec : TypeId → Bytes → Val → Except Fault DRes}
    (hb : b.length < 2 ^ 60) (hd : b.length < d) (hw : Writable p) (hp : getPath p m = .ok v)
    (hbd : ∀ f ∈ fs, Bounded (codecDecode zeros rec f.codec)) (hk : ∀ f ∈ fs, Keeps (codecDecode zeros rec f.codec))
    (hX : ∀ f ∈ fs, ∀ data v m r, data.length ≤ b.length → getPath (p ++ [.slot f.offset]) m = .ok v → codecDecode zeros rec f.codec data v = .ok r →
      Small r.val → decodeOut (p ++ [.slot f.offset]) m (.ok r)
        (X (some (.codec f.codec)) t!"decode" [.bytes (some data), .ptr (p ++ [.slot f.offset]) .uptr] m))
    (h : structDecode (dfields zeros rec fs) b v = .ok r) (hs : Small r.val) :
    decodeOut p m (.ok r) (invoke library X d (k + 3) (some (.info fs)) t!"decode" [.bytes (some b), .ptr p .uptr] m) := by
  cases v with
  | struct vs =>
    simp only [structDecode] at h
    have hl := decode_loop (X := X) (d := d) k hb hw hbd hk hX b.length 0 d vs m r hd (Nat.zero_le _) hp h hs
    rw [invoke]
    simp only [Option.map, V.typeName, find_decode]
    have hbody : struct_decode.body = .seq (.define (.arg (.ident t!"offset") .none) (.num 0))
      (.seq (.loop .skip decodeCond .skip (decodeFrom 0))
      (.seq (.ret (.arg (.ident t!"offset") (.arg (.ident t!"nil") .none))) .skip)) := rfl
    have hp : struct_decode.params = [(t!"b", .un .sliceOf (.ident t!"byte")), (t!"p", .sel (.ident t!"unsafe") t!"Pointer")] := rfl
    have hr : struct_decode.results = [(t!"", .ident t!"int"), (t!"", .ident t!"error")] := rfl
    have hv : struct_decode.recv = some (t!"info", .un .deref (.ident t!"structInfo")) := rfl
    simp only [callFunc, hbody, hp, hr, hv]
    have hsk : exec (invoke library X d (k + 2)) d .skip = fun s => .ok (.next, s) := by funext s; rw [exec]
    simp only [loopVars, hsk] at hl
    generalize decodeFrom 0 = B at hl ⊢
    generalize decodeCond = c at hl ⊢
    obtain ⟨m', hm, hl⟩ := hl
    cases r with
    | ok v' n =>
      simp only [DRes.val] at hm hl
      simp only [decodeOut, hm]
      simp only [loopVars] at hl
      go_run [hl]
    | err v' e =>
      simp only [DRes.val] at hm hl
      simp only [decodeOut, hm]
      obtain ⟨i, t, hl, rfl⟩ := hl
      refine ⟨i, ?_⟩
      go_run [hl]
  | _ => cases h

end Pb.Go
