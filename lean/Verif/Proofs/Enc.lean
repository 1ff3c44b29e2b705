import Verif.Model.Api
import Verif.Proofs.Wire
/-
Size and encode without accumulator and without recursion bound.
-/
namespace Pb
open Spec

/-- Sum of sizes. -/
def sumAll {α} (g : α → Except Fault Nat) : List α → Except Fault Nat
  | [] => .ok 0
  | x :: xs =>
    match g x with
    | .error e => .error e
    | .ok a =>
      match sumAll g xs with
      | .error e => .error e
      | .ok r => .ok (a + r)

/-- Concatenation of encodings. -/
def catAll {α} (g : α → Except Fault Bytes) : List α → Except Fault Bytes
  | [] => .ok []
  | x :: xs =>
    match g x with
    | .error e => .error e
    | .ok a =>
      match catAll g xs with
      | .error e => .error e
      | .ok r => .ok (a ++ r)

/-- Append to an accumulator. -/
def acc (b : Bytes) : Except Fault Bytes → Except Fault Bytes
  | .error e => .error e
  | .ok a => .ok (b ++ a)

theorem sumSizes_eq {α} (g : α → Except Fault Nat) (xs : List α) :
    ∀ n, sumSizes g n xs = match sumAll g xs with
      | .error e => .error e
      | .ok r => .ok (n + r) := by
  induction xs with
  | nil => intro n; rfl
  | cons x xs ih =>
    intro n
    simp only [sumSizes, sumAll, bind, Except.bind]
    cases g x with
    | error e => rfl
    | ok a =>
      simp only [ih]
      cases sumAll g xs with
      | error e => rfl
      | ok r => simp [Nat.add_assoc]

theorem sumSizes_zero {α} (g : α → Except Fault Nat) (xs : List α) : sumSizes g 0 xs = sumAll g xs := by
  rw [sumSizes_eq]; cases sumAll g xs <;> simp

theorem appendAll_eq {α} (enc : Bytes → α → Except Fault Bytes) (g : α → Except Fault Bytes) (xs : List α)
    (h : ∀ x ∈ xs, ∀ b, enc b x = acc b (g x)) : ∀ b, appendAll enc b xs = acc b (catAll g xs) := by
  induction xs with
  | nil => intro b; simp [appendAll, catAll, acc]
  | cons x xs ih =>
    intro b
    simp only [appendAll, catAll, bind, Except.bind, h x (by simp)]
    cases g x with
    | error e => rfl
    | ok a =>
      simp only [acc, ih (fun y hy => h y (by simp [hy]))]
      cases catAll g xs with
      | error e => rfl
      | ok r => simp

theorem sumAll_congr {α} (g g' : α → Except Fault Nat) (xs : List α) (h : ∀ x ∈ xs, g x = g' x) :
    sumAll g xs = sumAll g' xs := by
  induction xs with
  | nil => rfl
  | cons x xs ih => simp only [sumAll, h x (by simp), ih (fun y hy => h y (by simp [hy]))]

theorem catAll_congr {α} (g g' : α → Except Fault Bytes) (xs : List α) (h : ∀ x ∈ xs, g x = g' x) :
    catAll g xs = catAll g' xs := by
  induction xs with
  | nil => rfl
  | cons x xs ih => simp only [catAll, h x (by simp), ih (fun y hy => h y (by simp [hy]))]

/-- One map entry: tag, announced length, key, value. -/
def entryBytes (w : U64) (ks vs : Except Fault Nat) (kb vb : Except Fault Bytes) : Except Fault Bytes :=
  match ks with
  | .error e => .error e
  | .ok ks =>
    match vs with
    | .error e => .error e
    | .ok vs =>
      match kb with
      | .error e => .error e
      | .ok kb =>
        match vb with
        | .error e => .error e
        | .ok vb => .ok (leb128 w.toNat ++ (leb128 (BitVec.ofNat 64 (ks + vs)).toNat ++ (kb ++ vb)))

/-- A map without entries is written as a tag with length 0. -/
def wrapMap (w : U64) (r : Except Fault Bytes) : Except Fault Bytes :=
  match r with
  | .error e => .error e
  | .ok b => .ok (if b = [] then leb128 w.toNat ++ [0#8] else b)

/-- The encode functions without accumulator. -/
def encP (sz : TypeId → Val → Except Fault Nat) (rec : TypeId → Val → Except Fault Bytes) :
    Codec → Val → FTag → Except Fault Bytes
  | .normal s, p, f => encodeNormal s [] p f
  | .required s, p, f => encodeRequired s [] p f
  | .option s, p, f => encodeOption s [] p f
  | .bytes, p, f => encodeBytes [] p f
  | .ptr _ c, p, f =>
    match p with
    | .nilp => .ok []
    | .ptr v => encP sz rec c v f
    | _ => .error .confused
  | .msg t, p, f =>
    match p with
    | .nilp => .ok []
    | .ptr v =>
      match sz t v with
      | .error e => .error e
      | .ok n =>
        match rec t v with
        | .error e => .error e
        | .ok body => .ok (leb128 f.wiretag.toNat ++ (leb128 (BitVec.ofNat 64 n).toNat ++ body))
    | _ => .error .confused
  | .slice _ c, p, f =>
    match p with
    | .slice _ es _ => catAll (fun e => encP sz rec c e f) es
    | _ => .error .confused
  | .map i kc vc _ _, p, _ =>
    match p with
    | .map _ m =>
      wrapMap i.wiretag (catAll (fun (e : Key × Val) => entryBytes i.wiretag (codecSize sz kc e.1.toVal i.key)
        (codecSize sz kc e.2 i.val) (encP sz rec kc e.1.toVal i.key) (encP sz rec vc e.2 i.val)) m)
    | _ => .error .confused

theorem encodeNormal_acc (s : Scalar) (b : Bytes) (v : Val) (f : FTag) :
    encodeNormal s b v f = acc b (encodeNormal s [] v f) := by
  cases s <;> simp only [encodeNormal, bind, Except.bind, pure, Except.pure, appendVarint_eq,
    encodeLE32_eq, encodeLE64_eq] <;> split <;> (try rfl) <;> split <;> simp_all [acc]

theorem encodeRequired_acc (s : Scalar) (b : Bytes) (v : Val) (f : FTag) :
    encodeRequired s b v f = acc b (encodeRequired s [] v f) := by
  cases s <;> simp only [encodeRequired, bind, Except.bind, pure, Except.pure, appendVarint_eq,
    encodeLE32_eq, encodeLE64_eq] <;> split <;> (try rfl) <;> simp_all [acc]
  split <;> simp

theorem encodeBytes_acc (b : Bytes) (v : Val) (f : FTag) :
    encodeBytes b v f = acc b (encodeBytes [] v f) := by
  simp only [encodeBytes, bind, Except.bind, pure, Except.pure, appendVarint_eq]
  split <;> (try rfl) <;> split <;> simp [acc]

theorem codecEncode_eq (sz : TypeId → Val → Except Fault Nat) (rec : TypeId → Bytes → Val → Except Fault Bytes)
    (rec' : TypeId → Val → Except Fault Bytes) (hrec : ∀ t b v, rec t b v = acc b (rec' t v)) :
    ∀ c b v f, codecEncode sz rec c b v f = acc b (encP sz rec' c v f) := by
  intro c
  induction c with
  | normal s => intro b v f; exact encodeNormal_acc s b v f
  | required s => intro b v f; exact encodeRequired_acc s b v f
  | option s =>
    intro b v f
    simp only [codecEncode, encP, encodeOption]
    split
    · split
      · rw [encodeRequired_acc]
      · simp [acc]
    · rfl
  | bytes => intro b v f; exact encodeBytes_acc b v f
  | ptr zero c ih =>
    intro b v f
    cases v with
    | nilp => simp [codecEncode, encP, acc]
    | ptr v => exact ih _ _ _
    | _ => rfl
  | msg t =>
    intro b v f
    cases v with
    | nilp => simp [codecEncode, encP, acc]
    | ptr v =>
      simp only [codecEncode, encP, bind, Except.bind, appendVarint_eq]
      cases sz t v with
      | error e => rfl
      | ok n =>
        simp only [hrec]
        cases rec' t v with
        | error e => rfl
        | ok a => simp [acc]
    | _ => rfl
  | slice zero c ih =>
    intro b v f
    cases v with
    | slice n es sp => exact appendAll_eq _ _ _ (fun x _ b => ih b x f) b
    | _ => rfl
  | map i kc vc kd vd ihk ihv _ _ =>
    intro b v f
    cases v with
    | map isNil m =>
      simp only [codecEncode, encP, bind, Except.bind, pure, Except.pure]
      rw [appendAll_eq _ (fun (e : Key × Val) => entryBytes i.wiretag (codecSize sz kc e.1.toVal i.key)
        (codecSize sz kc e.2 i.val) (encP sz rec' kc e.1.toVal i.key) (encP sz rec' vc e.2 i.val)) m]
      · generalize catAll _ m = r
        cases r with
        | error e => rfl
        | ok a =>
          simp only [acc, wrapMap]
          cases a with
          | nil => simp [appendVarint_eq]
          | cons x a => simp
      · intro x _ b
        simp only [appendVarint_eq, ihk, ihv]
        cases codecSize sz kc x.1.toVal i.key with
        | error e => rfl
        | ok ks =>
          cases codecSize sz kc x.2 i.val with
          | error e => rfl
          | ok vs =>
            cases encP sz rec' kc x.1.toVal i.key with
            | error e => rfl
            | ok kb =>
              simp only [acc]
              cases encP sz rec' vc x.2 i.val with
              | error e => rfl
              | ok vb => simp [entryBytes]
    | _ => rfl

/-- The size of one map entry. -/
def entrySize (w : U64) (ks vs : Except Fault Nat) : Except Fault Nat :=
  match ks with
  | .error e => .error e
  | .ok ks =>
    match vs with
    | .error e => .error e
    | .ok vs => .ok (sizeOfVarint w + sizeOfVarint (BitVec.ofNat 64 (ks + vs)) + ks + vs)

/-- The size of a map without entries. -/
def wrapSize (w : U64) (r : Except Fault Nat) : Except Fault Nat :=
  match r with
  | .error e => .error e
  | .ok n => .ok (if n = 0 then sizeOfVarint w + 1 else n)

theorem codecSize_map (sz : TypeId → Val → Except Fault Nat) (i : MapInfo) (kc vc kd vd : Codec) (isNil : Bool)
    (m : List (Key × Val)) (f : FTag) :
    codecSize sz (.map i kc vc kd vd) (.map isNil m) f =
      wrapSize i.wiretag (sumAll (fun (e : Key × Val) => entrySize i.wiretag (codecSize sz kc e.1.toVal i.key)
        (codecSize sz vc e.2 i.val)) m) := by
  simp only [codecSize, sumSizes_zero, bind, Except.bind, pure, Except.pure]
  rw [sumAll_congr _ (fun (e : Key × Val) => entrySize i.wiretag (codecSize sz kc e.1.toVal i.key)
        (codecSize sz vc e.2 i.val))]
  · generalize sumAll _ m = r
    cases r with
    | error e => rfl
    | ok n => simp only [wrapSize]; split <;> rfl
  · intro e _
    cases codecSize sz kc e.1.toVal i.key with
    | error e => rfl
    | ok a => cases codecSize sz vc e.2 i.val <;> rfl

/-! ### recursion bound -/

theorem depth_mem_L {v : Val} : ∀ {vs : List Val}, v ∈ vs → v.depth ≤ Val.depthL vs := by
  intro vs
  induction vs with
  | nil => simp
  | cons w ws ih =>
    intro h
    simp only [Val.depthL]
    rcases List.mem_cons.mp h with rfl | h
    · omega
    · have := ih h; omega

theorem depth_mem_M {e : Key × Val} : ∀ {m : List (Key × Val)}, e ∈ m → e.2.depth ≤ Val.depthM m := by
  intro m
  induction m with
  | nil => simp
  | cons w ws ih =>
    obtain ⟨k, w⟩ := w
    intro h
    simp only [Val.depthM]
    rcases List.mem_cons.mp h with rfl | h
    · simp; omega
    · have := ih h; omega

theorem key_depth (k : Key) : k.toVal.depth = 0 := by cases k <;> simp [Key.toVal, Val.depth]

theorem codecSize_congr (rec rec' : TypeId → Val → Except Fault Nat) (D : Nat)
    (h : ∀ t v, v.depth < D → rec t v = rec' t v) :
    ∀ c v f, v.depth ≤ D → codecSize rec c v f = codecSize rec' c v f := by
  intro c
  induction c with
  | normal s => intros; rfl
  | required s => intros; rfl
  | option s => intros; rfl
  | bytes => intros; rfl
  | ptr zero c ih =>
    intro v f hd
    simp only [codecSize]
    split
    · rfl
    · simp [Val.depth] at hd; exact ih _ _ (by omega)
    · rfl
  | msg t =>
    intro v f hd
    simp only [codecSize]
    split
    · rfl
    · simp [Val.depth] at hd; rw [h t _ (by omega)]
    · rfl
  | slice zero c ih =>
    intro v f hd
    simp only [codecSize]
    split
    · rename_i es _
      rw [sumSizes_zero, sumSizes_zero]
      refine sumAll_congr _ _ _ fun x hx => ?_
      have := depth_mem_L hx
      simp [Val.depth] at hd
      exact ih _ _ (by omega)
    · rfl
  | map i kc vc kd vd ihk ihv _ _ =>
    intro v f hd
    simp only [codecSize]
    split
    · rename_i m
      rw [sumSizes_zero, sumSizes_zero]
      congr 1
      refine sumAll_congr _ _ _ fun x hx => ?_
      have := depth_mem_M hx
      simp [Val.depth] at hd
      rw [ihk _ _ (by rw [key_depth]; omega), ihv _ _ (by omega)]
    · rfl

theorem encP_congr (sz sz' : TypeId → Val → Except Fault Nat) (rec rec' : TypeId → Val → Except Fault Bytes) (D : Nat)
    (hs : ∀ t v, v.depth < D → sz t v = sz' t v)
    (h : ∀ t v, v.depth < D → rec t v = rec' t v) :
    ∀ c v f, v.depth ≤ D → encP sz rec c v f = encP sz' rec' c v f := by
  intro c
  induction c with
  | normal s => intros; rfl
  | required s => intros; rfl
  | option s => intros; rfl
  | bytes => intros; rfl
  | ptr zero c ih =>
    intro v f hd
    simp only [encP]
    split
    · rfl
    · simp [Val.depth] at hd; exact ih _ _ (by omega)
    · rfl
  | msg t =>
    intro v f hd
    simp only [encP]
    split
    · rfl
    · simp [Val.depth] at hd; rw [h t _ (by omega), hs t _ (by omega)]
    · rfl
  | slice zero c ih =>
    intro v f hd
    simp only [encP]
    split
    · rename_i es _
      refine catAll_congr _ _ _ fun x hx => ?_
      have := depth_mem_L hx
      simp [Val.depth] at hd
      exact ih _ _ (by omega)
    · rfl
  | map i kc vc kd vd ihk ihv _ _ =>
    intro v f hd
    simp only [encP]
    split
    · rename_i m
      rw [catAll_congr _ _ m fun x hx => ?_]
      have := depth_mem_M hx
      simp [Val.depth] at hd
      rw [ihk _ _ (by rw [key_depth]; omega), ihv _ _ (by omega),
        codecSize_congr sz sz' D hs _ _ _ (by rw [key_depth]; omega), codecSize_congr sz sz' D hs _ _ _ (by omega)]
    · rfl

theorem slotOf_depth {p v : Val} {o : Nat} (h : slotOf p o = .ok v) : v.depth < p.depth := by
  cases p with
  | struct fs =>
    simp only [slotOf] at h
    cases hf : fs[o]? with
    | none => simp [hf] at h
    | some w =>
      simp [hf] at h
      subst h
      have := depth_mem_L (List.mem_of_getElem? hf)
      simp [Val.depth]; omega
  | _ => simp [slotOf] at h

/-- `structInfo.size` over a size function for codecs. -/
def sizeFields (sz : Codec → Val → FTag → Except Fault Nat) (p : Val) (fields : List Field) : Except Fault Nat :=
  sumAll (fun (f : Field) =>
    match slotOf p f.offset with
    | .error e => .error e
    | .ok v => sz f.codec v f.tag) fields

/-- `structInfo.encode` over an encode function for codecs. -/
def encFields (enc : Codec → Val → FTag → Except Fault Bytes) (p : Val) (fields : List Field) : Except Fault Bytes :=
  catAll (fun (f : Field) =>
    match slotOf p f.offset with
    | .error e => .error e
    | .ok v => enc f.codec v f.tag) fields

theorem structSize_eq (sz : Codec → Val → FTag → Except Fault Nat) (fields : List Field) (p : Val) :
    structSize sz fields p = sizeFields sz p fields := by
  unfold structSize sizeFields
  rw [sumSizes_zero]
  refine sumAll_congr _ _ _ fun f _ => ?_
  cases slotOf p f.offset <;> rfl

theorem structEncode_eq (enc : Codec → Bytes → Val → FTag → Except Fault Bytes)
    (enc' : Codec → Val → FTag → Except Fault Bytes) (h : ∀ c b v f, enc c b v f = acc b (enc' c v f))
    (fields : List Field) (b : Bytes) (p : Val) :
    structEncode enc fields b p = acc b (encFields enc' p fields) := by
  unfold structEncode encFields
  refine appendAll_eq _ _ _ (fun x _ b => ?_) b
  simp only [bind, Except.bind]
  cases slotOf p x.offset with
  | error e => rfl
  | ok v => exact h _ _ _ _

theorem sizeFields_congr (rec rec' : TypeId → Val → Except Fault Nat) (fields : List Field) (p : Val)
    (h : ∀ t v, v.depth < p.depth - 1 → rec t v = rec' t v) :
    sizeFields (codecSize rec) p fields = sizeFields (codecSize rec') p fields := by
  refine sumAll_congr _ _ _ fun f _ => ?_
  cases hs : slotOf p f.offset with
  | error e => rfl
  | ok v =>
    have := slotOf_depth hs
    exact codecSize_congr rec rec' (p.depth - 1) h _ _ _ (by omega)

theorem encFields_congr (sz sz' : TypeId → Val → Except Fault Nat) (rec rec' : TypeId → Val → Except Fault Bytes)
    (fields : List Field) (p : Val)
    (hs : ∀ t v, v.depth < p.depth - 1 → sz t v = sz' t v)
    (h : ∀ t v, v.depth < p.depth - 1 → rec t v = rec' t v) :
    encFields (encP sz rec) p fields = encFields (encP sz' rec') p fields := by
  refine catAll_congr _ _ _ fun f _ => ?_
  cases hsl : slotOf p f.offset with
  | error e => rfl
  | ok v =>
    have := slotOf_depth hsl
    exact encP_congr sz sz' rec rec' (p.depth - 1) hs h _ _ _ (by omega)

theorem sizeMsg_succ (env : Env) (d : Nat) (t : TypeId) (v : Val) :
    sizeMsg env (d + 1) t v = sizeFields (codecSize (sizeMsg env d)) v (env t).fields := by
  rw [sizeMsg, structSize_eq]

theorem sizeMsg_stable (env : Env) : ∀ d t v, v.depth < d → sizeMsg env d t v = sizeMsg env (d + 1) t v := by
  intro d
  induction d with
  | zero => intro t v h; omega
  | succ d ih =>
    intro t v h
    rw [sizeMsg_succ, sizeMsg_succ]
    exact sizeFields_congr _ _ _ _ fun t w hw => ih t w (by omega)

theorem sizeMsg_depth (env : Env) (t : TypeId) (v : Val) (d d' : Nat) (h : v.depth < d) (hd : d ≤ d') :
    sizeMsg env d t v = sizeMsg env d' t v := by
  induction hd with
  | refl => rfl
  | step hd ih => rw [ih, sizeMsg_stable env _ t v (by simp at hd; omega)]

/-- `info.size` without recursion bound. -/
def sizeM (env : Env) (t : TypeId) (v : Val) : Except Fault Nat := sizeMsg env (v.depth + 1) t v

theorem sizeM_eq (env : Env) (t : TypeId) (v : Val) :
    sizeM env t v = sizeFields (codecSize (sizeM env)) v (env t).fields := by
  rw [sizeM, sizeMsg_succ]
  exact sizeFields_congr _ _ _ _ fun t w hw => (sizeMsg_depth env t w _ _ (by omega) (by omega)).symm

theorem encodeMsg_acc (env : Env) : ∀ d t b v, encodeMsg env d t b v = acc b (encodeMsg env d t [] v) := by
  intro d
  induction d with
  | zero => intros; rfl
  | succ d ih =>
    intro t b v
    rw [encodeMsg, encodeMsg, structEncode_eq _ _ (codecEncode_eq (sizeMsg env d) (encodeMsg env d)
      (fun t v => encodeMsg env d t [] v) ih), structEncode_eq _ _ (codecEncode_eq (sizeMsg env d) (encodeMsg env d)
      (fun t v => encodeMsg env d t [] v) ih)]
    cases encFields _ v _ <;> simp [acc]

theorem encodeMsg_succ (env : Env) (d : Nat) (t : TypeId) (v : Val) :
    encodeMsg env (d + 1) t [] v
      = encFields (encP (sizeMsg env d) (fun t v => encodeMsg env d t [] v)) v (env t).fields := by
  rw [encodeMsg, structEncode_eq _ _ (codecEncode_eq (sizeMsg env d) (encodeMsg env d)
      (fun t v => encodeMsg env d t [] v) (encodeMsg_acc env d))]
  cases encFields _ v _ <;> simp [acc]

theorem encodeMsg_stable (env : Env) :
    ∀ d t v, v.depth < d → encodeMsg env d t [] v = encodeMsg env (d + 1) t [] v := by
  intro d
  induction d with
  | zero => intro t v h; omega
  | succ d ih =>
    intro t v h
    rw [encodeMsg_succ, encodeMsg_succ]
    exact encFields_congr _ _ _ _ _ _ (fun t w hw => sizeMsg_stable env d t w (by omega))
      fun t w hw => ih t w (by omega)

theorem encodeMsg_depth (env : Env) (t : TypeId) (v : Val) (d d' : Nat) (h : v.depth < d) (hd : d ≤ d') :
    encodeMsg env d t [] v = encodeMsg env d' t [] v := by
  induction hd with
  | refl => rfl
  | step hd ih => rw [ih, encodeMsg_stable env _ t v (by simp at hd; omega)]

/-- `info.encode` without recursion bound, onto an empty buffer. -/
def encM (env : Env) (t : TypeId) (v : Val) : Except Fault Bytes := encodeMsg env (v.depth + 1) t [] v

theorem encM_eq (env : Env) (t : TypeId) (v : Val) :
    encM env t v = encFields (encP (sizeM env) (encM env)) v (env t).fields := by
  rw [encM, encodeMsg_succ]
  exact encFields_congr _ _ _ _ _ _ (fun t w hw => (sizeMsg_depth env t w _ _ (by omega) (by omega)).symm)
    fun t w hw => (encodeMsg_depth env t w _ _ (by omega) (by omega)).symm

end Pb
