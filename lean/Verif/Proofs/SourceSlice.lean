import Verif.Proofs.SourceClosure
/-
Running the function literals of slice.go.
-/
namespace Pb.Go
open Tree

set_option linter.unusedSimpArgs false

variable {X : Calls} {d : Nat} (k : Nat) {m : Val}

/-- `for i := 0; i < v.Len(); i++` over a list: `g` is the state before an iteration. -/
theorem loop_list {α} {c : State → Except Fault (V × Val)} {body post : State → Except Fault (Flow × State)} {mem : Val} {β : Type} {g : Nat → β → State}
    {f : β → α → Except Fault β} {es : List α} (hm : ∀ i a, (g i a).mem = mem)
    (hc : ∀ i a, i ≤ es.length → c (g i a) = .ok (.bool (decide (i < es.length)), mem))
    {s : β} (hb : ∀ i a a' e, es[i]? = some e → f a e = .ok a' → (∃ l, es.drop (i + 1) = l ∧ l.foldlM f a' = .ok s) →
      ∃ fl t, (fl = .next ∨ fl = .cont) ∧ body (g i a) = .ok (fl, t) ∧ post t = .ok (.next, g (i + 1) a')) :
    ∀ (n i : Nat) (a : β) (d' : Nat), i + n = es.length → n < d' → (es.drop i).foldlM f a = .ok s →
      loopN c body post d' (g i a) = .ok (.next, g es.length s) := by
  intro n
  induction n with
  | zero =>
    intro i a d' hi hd h
    obtain ⟨d', rfl⟩ : ∃ j, d' = j + 1 := ⟨d' - 1, by omega⟩
    have : i = es.length := by omega
    subst this
    rw [List.drop_length] at h
    cases h
    rw [loopN, hc _ _ (Nat.le_refl _)]
    simp only [bind, Except.bind, truth, Nat.lt_irrefl, decide_false, Bool.false_eq_true, if_false, pure, Except.pure]
    have := hm es.length s
    generalize g es.length s = t at this ⊢
    subst this
    rfl
  | succ n ih =>
    intro i a d' hi hd h
    obtain ⟨d', rfl⟩ : ∃ j, d' = j + 1 := ⟨d' - 1, by omega⟩
    have hlt : i < es.length := by omega
    rw [List.drop_eq_getElem_cons hlt, List.foldlM_cons] at h
    cases he : f a es[i] with
    | error x => rw [he] at h; cases h
    | ok a' =>
      rw [he] at h
      obtain ⟨fl, t, hf, hb', hp⟩ := hb i a a' es[i] (List.getElem?_eq_getElem hlt) he ⟨_, rfl, h⟩
      rw [loopN, hc _ _ (by omega)]
      have hmem : { g i a with mem := mem } = g i a := by rw [← hm i a]
      simp only [bind, Except.bind, truth, hlt, decide_true, if_true, hmem, hb']
      rcases hf with rfl | rfl <;> simp only [hp] <;> exact ih (i + 1) a' d' (by omega) (by omega) h

theorem sum_fold {α} {f : α → Except Fault Nat} : ∀ (l : List α) (n : Nat), sumSizes f n l = l.foldlM (fun n e => (f e).map (n + ·)) n := by
  intro l
  induction l with
  | nil => intro n; rfl
  | cons x xs ih =>
    intro n
    rw [sumSizes, List.foldlM_cons]
    cases f x with
    | error e => rfl
    | ok s => exact ih (n + s)

theorem append_fold {α} {f : Bytes → α → Except Fault Bytes} : ∀ (l : List α) (b : Bytes), appendAll f b l = l.foldlM f b := by
  intro l
  induction l with
  | nil => intro n; rfl
  | cons x xs ih =>
    intro b
    rw [appendAll, List.foldlM_cons]
    cases f b x with
    | error e => rfl
    | ok s => exact ih s

theorem sum_mono {α} {f : α → Except Fault Nat} : ∀ (l : List α) (n s : Nat), sumSizes f n l = .ok s → n ≤ s := by
  intro l
  induction l with
  | nil => intro n s h; cases h; exact Nat.le_refl _
  | cons x xs ih =>
    intro n s h
    rw [sumSizes] at h
    cases hx : f x with
    | error e => rw [hx] at h; cases h
    | ok y => rw [hx] at h; exact Nat.le_trans (Nat.le_add_right n y) (ih _ _ h)

/-! ### size -/

def sliceSizeBody : Stmt :=
  match closure_sliceSize.body with
  | .seq _ (.seq (.ite _ _ (.seq (.loop _ _ _ b) _) _) _) => b
  | _ => .skip

def sliceSizeVars (p : List Step) (f : Field) (c : Codec) (i n : Nat) : Vars :=
  (t!"i", .int (BitVec.ofNat 64 i)) :: (t!"v", .ptr p (.ptr .slice)) :: (t!"n", .int (BitVec.ofNat 64 n)) ::
    (t!"p", .ptr p .uptr) :: (t!"sf", .field (some f)) :: sliceOuter c

theorem run_sliceSize {p : List Step} {isNil : Bool} {es sp : List Val} {c : Codec} {f : Field} {n : Nat} {size : Val → Except Fault Nat}
    (hp : getPath p m = .ok (.slice isNil es sp)) (hl : es.length < 2 ^ 62) (hd : es.length < d)
    (hX : ∀ i e s, es[i]? = some e → size e = .ok s → s ≤ n →
      X (some (.codec c)) t!"size" [.ptr (p ++ [.elem i]) .uptr, .field (some f)] m = .ok ([.int (BitVec.ofNat 64 s)], m))
    (h : sumSizes size 0 es = .ok n) :
    callClosure (invoke library X d (k + 1)) d closure_sliceSize (sliceOuter c) [.ptr p .uptr, .field (some f)] m
      = .ok ([.int (BitVec.ofNat 64 n)], m) := by
  rw [sum_fold] at h
  have hloop := loop_list (mem := m) (d' := d) (es := es) (s := n) (i := 0) (n := es.length) (a := 0)
    (g := fun i n => (⟨sliceSizeVars p f c i n, 1, m⟩ : State))
    (f := fun n e => (size e).map (n + ·))
    (c := fun s => eval (invoke library X d (k + 1)) s.vars (.bin .lt (.ident t!"i") (.call (.sel (.ident t!"v") t!"Len") .none)) s.mem)
    (body := inBlock (exec (invoke library X d (k + 1)) d sliceSizeBody))
    (post := exec (invoke library X d (k + 1)) d (.opAssign .add (.ident t!"i") (.num 1)))
    (fun _ _ => rfl)
    (by
      intro i a hi
      have hs := slt_ofNat (a := i) (b := es.length) (by omega) (by omega)
      go_run [sliceSizeVars, hp, hs])
    (by
      intro i a a' e he hf hr
      obtain ⟨l, _, hr⟩ := hr
      cases hs : size e with
      | error x => rw [hs] at hf; cases hf
      | ok s =>
        rw [hs] at hf
        cases hf
        have hle := sum_mono l (a + s) n (by rw [sum_fold]; exact hr)
        have hx := hX i e s he hs (by omega)
        have hi : i < es.length := (List.getElem?_eq_some_iff.1 he).1
        have e1 : i % 18446744073709551616 = i := Nat.mod_eq_of_lt (by omega)
        have hbody : sliceSizeBody = (.seq (.define (.arg (.ident t!"elem") .none) (.call (.sel (.ident t!"v") t!"Index") (.arg (.ident t!"i") (.arg (.ident t!"elemSize") .none))))
          (.seq (.opAssign .add (.ident t!"n") (.call (.sel (.ident t!"c") t!"size") (.arg (.ident t!"elem") (.arg (.ident t!"sf") .none))))
          .skip)) := rfl
        refine ⟨.next, ⟨sliceSizeVars p f c i (a + s), 1, m⟩, .inl rfl, ?_, ?_⟩
        · rw [hbody]
          go_run [sliceSizeVars, sliceOuter, e1, run_codec, hx, BitVec.ofNat_add]
        · go_run [sliceSizeVars, BitVec.ofNat_add])
    (by omega) hd h
  have hbody : closure_sliceSize.body =
    (.seq (.define (.arg (.ident t!"n") .none) (.num 0))
    (.seq (.ite (.define (.arg (.ident t!"v") .none) (.call (.un .deref (.ident t!"Slice")) (.arg (.ident t!"p") .none))) (.bin .ne (.ident t!"v") (.ident t!"nil"))
    (.seq (.loop (.define (.arg (.ident t!"i") .none) (.num 0)) (.bin .lt (.ident t!"i") (.call (.sel (.ident t!"v") t!"Len") .none)) (.opAssign .add (.ident t!"i") (.num 1))
    sliceSizeBody)
    .skip)
    .skip)
    (.seq (.ret (.arg (.ident t!"n") .none))
    .skip))) := rfl
  have hps : closure_sliceSize.params = [(t!"p", (.sel (.ident t!"unsafe") t!"Pointer")), (t!"sf", (.un .deref (.ident t!"structField")))] := rfl
  have hrs : closure_sliceSize.results = [(t!"", (.ident t!"int"))] := rfl
  simp only [callClosure, hbody, hps, hrs]
  generalize sliceSizeBody = B at hloop ⊢
  generalize (Expr.bin .lt (.ident t!"i") (.call (.sel (.ident t!"v") t!"Len") .none)) = cnd at hloop ⊢
  generalize (Stmt.opAssign .add (.ident t!"i") (.num 1)) = pst at hloop ⊢
  simp only [sliceSizeVars, sliceOuter] at hloop
  go_run [sliceOuter, hloop]

/-! ### encode -/

def sliceEncodeBody : Stmt :=
  match closure_sliceEncode.body with
  | .seq (.ite _ _ (.seq (.loop _ _ _ b) _) _) _ => b
  | _ => .skip

def sliceEncodeVars (p : List Step) (f : Field) (c : Codec) (i : Nat) (b : Bytes) : Vars :=
  (t!"i", .int (BitVec.ofNat 64 i)) :: (t!"s", .ptr p (.ptr .slice)) :: (t!"b", .bytes (some b)) ::
    (t!"p", .ptr p .uptr) :: (t!"sf", .field (some f)) :: sliceOuter c

theorem append_mono {α} {f : Bytes → α → Except Fault Bytes} (hf : ∀ b e c, f b e = .ok c → b.length ≤ c.length) :
    ∀ (l : List α) (b c : Bytes), appendAll f b l = .ok c → b.length ≤ c.length := by
  intro l
  induction l with
  | nil => intro b c h; cases h; exact Nat.le_refl _
  | cons x xs ih =>
    intro b c h
    rw [appendAll] at h
    cases hx : f b x with
    | error e => rw [hx] at h; cases h
    | ok y => rw [hx] at h; exact Nat.le_trans (hf _ _ _ hx) (ih _ _ h)

theorem run_sliceEncode {p : List Step} {isNil : Bool} {es sp : List Val} {c : Codec} {f : Field} {b r : Bytes} {enc : Bytes → Val → Except Fault Bytes}
    (hp : getPath p m = .ok (.slice isNil es sp)) (hl : es.length < 2 ^ 62) (hd : es.length < d)
    (hm : ∀ b e c, enc b e = .ok c → b.length ≤ c.length)
    (hX : ∀ i e b c', es[i]? = some e → enc b e = .ok c' → c'.length ≤ r.length →
      X (some (.codec c)) t!"encode" [.bytes (some b), .ptr (p ++ [.elem i]) .uptr, .field (some f)] m = .ok ([.bytes (some c')], m))
    (h : appendAll enc b es = .ok r) :
    callClosure (invoke library X d (k + 1)) d closure_sliceEncode (sliceOuter c) [.bytes (some b), .ptr p .uptr, .field (some f)] m
      = .ok ([.bytes (some r)], m) := by
  rw [append_fold] at h
  have hloop := loop_list (mem := m) (d' := d) (es := es) (s := r) (i := 0) (n := es.length) (a := b)
    (g := fun i n => (⟨sliceEncodeVars p f c i n, 1, m⟩ : State))
    (f := enc)
    (c := fun s => eval (invoke library X d (k + 1)) s.vars (.bin .lt (.ident t!"i") (.call (.sel (.ident t!"s") t!"Len") .none)) s.mem)
    (body := inBlock (exec (invoke library X d (k + 1)) d sliceEncodeBody))
    (post := exec (invoke library X d (k + 1)) d (.opAssign .add (.ident t!"i") (.num 1)))
    (fun _ _ => rfl)
    (by
      intro i a hi
      have hs := slt_ofNat (a := i) (b := es.length) (by omega) (by omega)
      go_run [sliceEncodeVars, hp, hs])
    (by
      intro i a a' e he hf hr
      obtain ⟨l, _, hr⟩ := hr
      have hle := append_mono hm l a' r (by rw [append_fold]; exact hr)
      have hx := hX i e a a' he hf hle
      have hi : i < es.length := (List.getElem?_eq_some_iff.1 he).1
      have e1 : i % 18446744073709551616 = i := Nat.mod_eq_of_lt (by omega)
      have hbody : sliceEncodeBody = (.seq (.define (.arg (.ident t!"elem") .none) (.call (.sel (.ident t!"s") t!"Index") (.arg (.ident t!"i") (.arg (.ident t!"elemSize") .none))))
          (.seq (.assign (.arg (.ident t!"b") .none) (.arg (.call (.sel (.ident t!"c") t!"encode") (.arg (.ident t!"b") (.arg (.ident t!"elem") (.arg (.ident t!"sf") .none)))) .none))
          .skip)) := rfl
      refine ⟨.next, ⟨sliceEncodeVars p f c i a', 1, m⟩, .inl rfl, ?_, ?_⟩
      · rw [hbody]
        go_run [sliceEncodeVars, sliceOuter, e1, run_codec, hx]
      · go_run [sliceEncodeVars, BitVec.ofNat_add])
    (by omega) hd h
  have hbody : closure_sliceEncode.body =
    (.seq (.ite (.define (.arg (.ident t!"s") .none) (.call (.un .deref (.ident t!"Slice")) (.arg (.ident t!"p") .none))) (.bin .ne (.ident t!"s") (.ident t!"nil"))
    (.seq (.loop (.define (.arg (.ident t!"i") .none) (.num 0)) (.bin .lt (.ident t!"i") (.call (.sel (.ident t!"s") t!"Len") .none)) (.opAssign .add (.ident t!"i") (.num 1))
    sliceEncodeBody)
    .skip)
    .skip)
    (.seq (.ret (.arg (.ident t!"b") .none))
    .skip)) := rfl
  have hps : closure_sliceEncode.params = [(t!"b", (.un .sliceOf (.ident t!"byte"))), (t!"p", (.sel (.ident t!"unsafe") t!"Pointer")),
    (t!"sf", (.un .deref (.ident t!"structField")))] := rfl
  have hrs : closure_sliceEncode.results = [(t!"", (.un .sliceOf (.ident t!"byte")))] := rfl
  simp only [callClosure, hbody, hps, hrs]
  generalize sliceEncodeBody = B at hloop ⊢
  generalize (Expr.bin .lt (.ident t!"i") (.call (.sel (.ident t!"s") t!"Len") .none)) = cnd at hloop ⊢
  generalize (Stmt.opAssign .add (.ident t!"i") (.num 1)) = pst at hloop ⊢
  simp only [sliceEncodeVars, sliceOuter] at hloop
  go_run [sliceOuter, hloop]

/-! ### decode -/

/-- The capacity after growing. -/
def grown (n : Nat) : Nat := if 2 * n = 0 then 10 else 2 * n

theorem run_growSlice {p : List Step} {isNil : Bool} {es sp : List Val} {z : Val} (hp : getPath p m = .ok (.slice isNil es sp))
    (hl : es.length + sp.length < 2 ^ 60) :
    invoke library X d (k + 1) none t!"growSlice" [.rtype z, .ptr p (.ptr .slice)] m
      = .ok ([.slice es (List.replicate (grown (es.length + sp.length) - es.length) z)], m) := by
  go_call find_growSlice growSlice_growSlice
  have e1 : es.length % 18446744073709551616 = es.length := Nat.mod_eq_of_lt (by omega)
  have e2 : (2 * (es.length + sp.length)) % 18446744073709551616 = 2 * (es.length + sp.length) := Nat.mod_eq_of_lt (by omega)
  have hm1 := msb_ofNat (a := es.length) (by omega)
  have hm2 := msb_ofNat (a := 2 * (es.length + sp.length)) (by omega)
  have hmul : 2#64 * BitVec.ofNat 64 (es.length + sp.length) = BitVec.ofNat 64 (2 * (es.length + sp.length)) := by
    apply BitVec.eq_of_toNat_eq; rw [BitVec.toNat_mul]; simp
  by_cases h0 : es.length + sp.length = 0
  · have h1 : es = [] := List.length_eq_zero_iff.1 (by omega)
    have h2 : sp = [] := List.length_eq_zero_iff.1 (by omega)
    subst h1 h2
    have h10 : (10#64).msb = false := by decide
    go_run [hp, copySlice, grown, h10]
  · have hne : ¬ BitVec.ofNat 64 (2 * (es.length + sp.length)) = 0#64 := fun h =>
      absurd ((ofNat_inj (b := 0) (by omega) (by decide)).1 h) (by omega)
    have hg : grown (es.length + sp.length) = 2 * (es.length + sp.length) := by simp only [grown]; rw [if_neg (by omega)]
    have hlt : ¬ 2 * (es.length + sp.length) < es.length := by omega
    go_run [hp, copySlice, hg, hmul, hne, e1, e2, hm1, hm2, hlt]

theorem grown_le (n : Nat) : n ≤ grown n := by
  simp only [grown]; split <;> omega

/-- Storing what is already there. -/
theorem setPath_here {p : List Step} {v m : Val} (hw : Writable p) (hp : getPath p m = .ok v) : setPath v p m = .ok m := by
  exact setPath_same hw hp

theorem run_sliceDecode {p : List Step} {isNil : Bool} {es sp sp' : List Val} {slot v z m1 m2 m3 : Val} {c : Codec} {b : Bytes} {i : BitVec 64} {e : Option Err}
    (hw : Writable p) (hp : getPath p m = .ok (.slice isNil es sp)) (hl : es.length + sp.length < 2 ^ 60)
    (hg : growIfFull z es sp = slot :: sp')
    (h1 : setPath (.slice (if sp = [] then false else isNil) es (slot :: sp')) p m = .ok m1)
    (h2 : setPath (.slice (if sp = [] then false else isNil) es (v :: sp')) p m1 = .ok m2)
    (hX : X (some (.codec c)) t!"decode" [.bytes (some b), .ptr (p ++ [.elem es.length]) .uptr] m1 = .ok ([.int i, .err e], m2))
    (h3 : match e with
      | none => setPath (.slice (if sp = [] then false else isNil) (es ++ [v]) sp') p m2 = .ok m3
      | some _ => m2 = m3) :
    callClosure (invoke library X d (k + 1)) d closure_sliceDecode ((t!"elemType", .rtype z) :: sliceOuter c) [.bytes (some b), .ptr p .uptr] m
      = .ok ([.int i, .err e], m3) := by
  have hgr := run_growSlice (X := X) (d := d) (k := k) (z := z) hp hl
  have hg2 := (setPath_get h2).1
  have e1 : es.length % 18446744073709551616 = es.length := Nat.mod_eq_of_lt (by omega)
  have ha : (es ++ v :: sp').take (es.length + 1) = es ++ [v] := by
    rw [List.take_append, List.take_of_length_le (Nat.le_succ _), Nat.add_sub_cancel_left]; rfl
  have hb : (es ++ v :: sp').drop (es.length + 1) = sp' := by simp
  have hadd : (BitVec.ofNat 64 es.length + 1#64).toNat = es.length + 1 := by
    simp; omega
  unfold closure_sliceDecode
  by_cases hs : sp = []
  · subst hs
    simp only [if_true] at *
    have hg' : List.replicate (grown (es.length + ([] : List Val).length) - es.length) z = slot :: sp' := by
      simpa only [growIfFull, if_true, grown] using hg
    rw [hg'] at hgr
    have hgp := (setPath_get h1).1
    cases e with
    | none =>
      simp only at h3
      go_run [callClosure, sliceOuter, hp, hgr, h1, hgp, e1, run_codec, hX, hg2, hadd, ha, hb, h3]
    | some e =>
      simp only at h3
      go_run [callClosure, sliceOuter, hp, hgr, h1, hgp, e1, run_codec, hX, h3]
  · rw [if_neg hs] at *
    have hne : ¬ BitVec.ofNat 64 es.length = BitVec.ofNat 64 (es.length + sp.length) := fun h => by
      have hq := (ofNat_inj (by omega) (by omega)).1 h
      exact hs (List.length_eq_zero_iff.1 (by omega))
    have hsp : sp = slot :: sp' := by simpa only [growIfFull, if_neg hs] using hg
    have hm1 : m1 = m := by
      rw [← hsp, setPath_here hw hp] at h1; cases h1; rfl
    subst hm1
    cases e with
    | none =>
      simp only at h3
      go_run [callClosure, sliceOuter, hp, hne, e1, run_codec, hX, hg2, hadd, ha, hb, h3]
    | some e =>
      simp only at h3
      go_run [callClosure, sliceOuter, hp, hne, e1, run_codec, hX, h3]

end Pb.Go
