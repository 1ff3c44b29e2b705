import Verif.Model.Conc
/-
The programs of `Model/Conc.lean`, run alone, do what the functions of `Model/Flat.lean` do.
-/
namespace Pb.Flat

/-- Runs a program alone. `Get` never finds anything; `Put` needs a struct of the right size that is zero. -/
def exec {α : Type} : Act α → Mem → Except Fault (α × Mem)
  | .ret x, m => .ok (x, m)
  | .fail f, _ => .error f
  | .load a n al k, m => do exec (k (← load m a n al)) m
  | .store a cs al k, m => do exec k (← store m a cs al)
  | .data a n k, m => do exec (k (← loadData m a n)) m
  | .alloc o k, m => exec (k m.length) (m ++ [o])
  | .entries a k, m => do exec (k (← mapEntries m (some a))) m
  | .insert b e k, m => do exec k (← insertEntry m b e)
  | .get n k, m => exec (k m.length) (m ++ [.mem (zeroCells n)])
  | .put n b k, m => if m[b]? = some (.mem (zeroCells n)) then exec k m else .error .confused

theorem act_bind {α β : Type} (x : Act α) (f : α → Act β) : (x >>= f) = x.bind f := rfl
theorem act_pure {α : Type} (x : α) : (pure x : Act α) = .ret x := rfl

theorem exec_bind {α β : Type} (x : Act α) (f : α → Act β) : ∀ m, exec (x.bind f) m = (exec x m).bind fun r => exec (f r.1) r.2 := by
  induction x with
  | ret x => intro m; rfl
  | fail e => intro m; rfl
  | load a n al k ih =>
    intro m
    simp only [Act.bind, exec, bind, Except.bind]
    cases load m a n al with
    | error => rfl
    | ok cs => exact ih cs m
  | store a cs al k ih =>
    intro m
    simp only [Act.bind, exec, bind, Except.bind]
    cases store m a cs al with
    | error => rfl
    | ok m' => exact ih m'
  | data a n k ih =>
    intro m
    simp only [Act.bind, exec, bind, Except.bind]
    cases loadData m a n with
    | error => rfl
    | ok cs => exact ih cs m
  | alloc o k ih => intro m; exact ih _ _
  | entries a k ih =>
    intro m
    simp only [Act.bind, exec, bind, Except.bind]
    cases mapEntries m (some a) with
    | error => rfl
    | ok cs => exact ih cs m
  | insert b e k ih =>
    intro m
    simp only [Act.bind, exec, bind, Except.bind]
    cases insertEntry m b e with
    | error => rfl
    | ok m' => exact ih m'
  | get n k ih => intro m; exact ih _ _
  | put n b k ih =>
    intro m
    simp only [Act.bind, exec]
    split
    · exact ih m
    · rfl

/-- If `r` succeeds, so does `x`, with the corresponding result. -/
def Runs {α β : Type} (φ : β → α × Mem) (x : Act α) (m : Mem) (r : Except Fault β) : Prop := ∀ y, r = .ok y → exec x m = .ok (φ y)

/-- For functions that do not change memory. -/
abbrev RunsR {α : Type} (x : Act α) (m : Mem) (r : Except Fault α) : Prop := Runs (fun y => (y, m)) x m r
/-- For functions that only change memory. -/
abbrev RunsW (x : Act Unit) (m : Mem) (r : Except Fault Mem) : Prop := Runs (fun m' => ((), m')) x m r
/-- For decode functions. -/
abbrev RunsD (x : Act (Except Err Nat)) (m : Mem) (r : Except Fault Res) : Prop := Runs (fun q => (q.out, q.mem)) x m r

theorem runs_bind {α β γ δ : Type} {φ : β → α × Mem} {ψ : δ → γ × Mem} {x : Act α} {m : Mem} {r : Except Fault β} {f : α → Act γ}
    {g : β → Except Fault δ} (h : Runs φ x m r) (hf : ∀ y, r = .ok y → Runs ψ (f (φ y).1) (φ y).2 (g y)) :
    Runs ψ (x.bind f) m (r.bind g) := by
  intro z hz
  cases r with
  | error e => cases hz
  | ok y =>
    rw [exec_bind, h y rfl]
    exact hf y rfl z hz

theorem runs_ret {α β : Type} {φ : β → α × Mem} {x : α} {m : Mem} {y : β} (h : φ y = (x, m)) : Runs φ (.ret x) m (.ok y) := by
  intro z hz; cases hz; rw [h]; rfl

theorem runs_error {α β : Type} {φ : β → α × Mem} {x : Act α} {m : Mem} {f : Fault} : Runs φ x m (.error f : Except Fault β) := by
  intro z hz; cases hz

theorem runs_lift {α : Type} (x : Except Fault α) (m : Mem) : RunsR (.lift x) m x := by
  intro y hy; cases hy; rfl

theorem runs_load (m : Mem) (a : Addr) (n al : Nat) : RunsR (loadA a n al) m (load m a n al) := by
  intro y hy
  simp only [loadA, exec, hy, bind, Except.bind]

theorem runs_store (m : Mem) (a : Addr) (cs : List Cell) (al : Nat) : RunsW (storeA a cs al) m (store m a cs al) := by
  intro y hy
  simp only [storeA, exec, hy, bind, Except.bind]

theorem runs_data (m : Mem) (a : Addr) (n : Nat) : RunsR (.data a n .ret) m (loadData m a n) := by
  intro y hy
  simp only [exec, hy, bind, Except.bind]

/-- After an allocation. -/
theorem runs_alloc {γ δ : Type} {ψ : δ → γ × Mem} {m : Mem} {o : Obj} {f : Addr → Act γ} {r : Except Fault δ}
    (h : Runs ψ (f ⟨m.length, 0⟩) (m ++ [o]) r) : Runs ψ ((allocA o).bind f) m r := by
  intro z hz
  exact h z hz

theorem runs_loadPtr (m : Mem) (a : Addr) : RunsR (loadPtrA a) m (loadPtr m a) :=
  runs_bind (runs_load m a 8 8) fun _ _ => runs_lift _ _

theorem runs_loadInt (m : Mem) (a : Addr) : RunsR (loadIntA a) m (loadInt m a) :=
  runs_bind (runs_load m a 8 8) fun _ _ => runs_lift _ _

theorem runs_load32 (m : Mem) (a : Addr) : RunsR (load32A a) m (load32 m a) :=
  runs_bind (runs_load m a 4 4) fun _ _ => runs_bind (runs_lift _ _) fun _ _ => runs_ret rfl

theorem runs_load64 (m : Mem) (a : Addr) : RunsR (load64A a) m (load64 m a) :=
  runs_bind (runs_load m a 8 8) fun _ _ => runs_bind (runs_lift _ _) fun _ _ => runs_ret rfl

theorem runs_loadBool (m : Mem) (a : Addr) : RunsR (loadBoolA a) m (loadBool m a) :=
  runs_bind (runs_load m a 1 1) fun _ _ => runs_bind (runs_lift _ _) fun _ _ => runs_ret rfl

theorem runs_loadStr (m : Mem) (a : Addr) : RunsR (loadStrA a) m (loadStr m a) := by
  refine runs_bind (runs_loadPtr m a) fun d _ => runs_bind (runs_loadInt m _) fun n _ => ?_
  dsimp only
  split
  · exact runs_ret rfl
  · cases d with
    | none => exact runs_error
    | some d => exact runs_data m d n

theorem loadData_zero {m : Mem} {a : Addr} {x : Bytes} (h : loadData m a 0 = .ok x) : x = [] := by
  unfold loadData at h
  split at h
  · split at h
    · cases h; simp
    · cases h
  · simp only [load, bind, Except.bind] at h
    split at h
    · cases h
    · rename_i cs hcs
      have : cs = [] := by
        split at hcs
        · cases hcs
        · split at hcs
          · split at hcs
            · cases hcs; simp
            · cases hcs
          · cases hcs
      subst this
      cases h; rfl
  · cases h

theorem runs_loadBytes (m : Mem) (a : Addr) : RunsR (loadBytesA a) m (loadBytes m a) := by
  refine runs_bind (runs_loadPtr m a) fun d _ => runs_bind (runs_loadInt m _) fun n _ => ?_
  dsimp only
  cases d with
  | none => exact runs_ret rfl
  | some d =>
    dsimp only
    split
    · rename_i hn
      subst hn
      intro y hy
      simp only [bind, Except.bind, pure, Except.pure] at hy
      rcases hx : loadData m d 0 with e | x <;> rw [hx] at hy
      · cases hy
      · cases hy
        rw [loadData_zero hx]; rfl
    · exact runs_bind (runs_data m d n) fun _ _ => runs_ret rfl

theorem runs_loadVal (m : Mem) (a : Addr) (s : Shape) : RunsR (loadValA a s) m (loadVal m a s) := by
  cases s with
  | b8 => exact runs_bind (runs_loadBool m a) fun _ _ => runs_ret rfl
  | w32 => exact runs_bind (runs_load32 m a) fun _ _ => runs_ret rfl
  | w64 => exact runs_bind (runs_load64 m a) fun _ _ => runs_ret rfl
  | str => exact runs_bind (runs_loadStr m a) fun _ _ => runs_ret rfl
  | _ => exact runs_error

theorem runs_storeVal (m : Mem) (a : Addr) (v : Val) : RunsW (storeValA a v) m (storeVal m a v) := by
  cases v with
  | b8 | w32 | w64 => exact runs_store _ _ _ _
  | str s =>
    cases s with
    | nil => exact runs_store _ _ _ _
    | cons x s => exact runs_alloc (runs_store _ _ _ _)
  | _ => exact runs_error

theorem runs_mapEntries (m : Mem) (p : Option Addr) : RunsR (mapEntriesA p) m (mapEntries m p) := by
  cases p with
  | none => exact runs_ret rfl
  | some p =>
    intro y hy
    simp only [mapEntriesA, exec, hy, bind, Except.bind]

/-! ### size and encode -/

theorem runs_sizeNormal (m : Mem) (s : Scalar) (a : Addr) (f : FTag) : RunsR (sizeNormalA s a f) m (sizeNormalF m s a f) :=
  runs_bind (runs_loadVal m a _) fun _ _ => runs_lift _ _

theorem runs_sizeRequired (m : Mem) (s : Scalar) (a : Addr) (f : FTag) : RunsR (sizeRequiredA s a f) m (sizeRequiredF m s a f) := by
  cases s <;> first | exact runs_lift _ _ | exact runs_bind (runs_loadVal m a _) fun _ _ => runs_lift _ _

theorem runs_sumSizes {α : Type} {m : Mem} {f : α → Act Nat} {g : α → Except Fault Nat} (h : ∀ x, RunsR (f x) m (g x)) :
    ∀ (xs : List α) (n : Nat), RunsR (sumSizesA f n xs) m (sumSizes g n xs)
  | [], _ => runs_ret rfl
  | x :: xs, _ => runs_bind (h x) fun _ _ => runs_sumSizes h xs _

theorem runs_codecSize {m : Mem} {rec recF} (hrec : ∀ t a, RunsR (rec t a) m (recF t a)) :
    ∀ (c : Codec) (a : Addr) (f : FTag), RunsR (codecSizeA rec c a f) m (codecSizeF m recF c a f)
  | .normal s, a, f => by simpa only [codecSizeA, codecSizeF] using runs_sizeNormal m s a f
  | .required s, a, f => by simpa only [codecSizeA, codecSizeF] using runs_sizeRequired m s a f
  | .option s, a, f => by
    simp only [codecSizeA, codecSizeF]
    refine runs_bind (runs_loadBool m a) fun x _ => ?_
    dsimp only
    split
    · exact runs_sizeRequired m s _ f
    · exact runs_ret rfl
  | .bytes, a, f => by
    simp only [codecSizeA, codecSizeF]
    exact runs_bind (runs_loadBytes m a) fun _ _ => runs_lift _ _
  | .ptr _ c, a, f => by
    simp only [codecSizeA, codecSizeF]
    refine runs_bind (runs_loadPtr m a) fun p _ => ?_
    cases p with
    | none => exact runs_ret rfl
    | some p => exact runs_codecSize hrec c p f
  | .msg t, a, f => by
    simp only [codecSizeA, codecSizeF]
    refine runs_bind (runs_loadPtr m a) fun p _ => ?_
    cases p with
    | none => exact runs_ret rfl
    | some p => exact runs_bind (hrec t p) fun _ _ => runs_ret rfl
  | .slice _ c, a, f => by
    simp only [codecSizeA, codecSizeF]
    refine runs_bind (runs_loadPtr m a) fun d _ => runs_bind (runs_loadInt m _) fun n _ => ?_
    exact runs_sumSizes (fun i => runs_bind (runs_lift _ _) fun _ _ => runs_codecSize hrec c _ f) _ _
  | .map i kc vc _ _, a, f => by
    simp only [codecSizeA, codecSizeF]
    refine runs_bind (runs_loadPtr m a) fun p _ => runs_bind (runs_mapEntries m p) fun es _ =>
      runs_bind (runs_sumSizes (fun e => ?_) _ _) fun n _ => ?_
    · exact runs_bind (runs_codecSize hrec kc _ _) fun _ _ => runs_bind (runs_codecSize hrec vc _ _) fun _ _ => runs_ret rfl
    · dsimp only
      split <;> exact runs_ret rfl

theorem runs_sizeMsg (lay : Lay) (env : Env) (m : Mem) : ∀ d t a, RunsR (sizeMsgA lay env d t a) m (sizeMsgF lay env m d t a)
  | 0, _, _ => runs_error
  | d + 1, _, _ => runs_sumSizes (fun _ => runs_codecSize (runs_sizeMsg lay env m d) _ _ _) _ _

theorem runs_appendAll {α : Type} {m : Mem} {f : Bytes → α → Act Bytes} {g : Bytes → α → Except Fault Bytes}
    (h : ∀ b x, RunsR (f b x) m (g b x)) : ∀ (xs : List α) (b : Bytes), RunsR (appendAllA f b xs) m (appendAll g b xs)
  | [], _ => runs_ret rfl
  | x :: xs, _ => runs_bind (h _ x) fun _ _ => runs_appendAll h xs _

theorem runs_codecEncode {m : Mem} {sz szF rec recF} (hsz : ∀ t a, RunsR (sz t a) m (szF t a))
    (hrec : ∀ t b a, RunsR (rec t b a) m (recF t b a)) :
    ∀ (c : Codec) (b : Bytes) (a : Addr) (f : FTag), RunsR (codecEncodeA sz rec c b a f) m (codecEncodeF m szF recF c b a f)
  | .normal s, b, a, f => by
    simp only [codecEncodeA, codecEncodeF]
    exact runs_bind (runs_loadVal m a _) fun _ _ => runs_lift _ _
  | .required s, b, a, f => by
    simp only [codecEncodeA, codecEncodeF]
    exact runs_bind (runs_loadVal m a _) fun _ _ => runs_lift _ _
  | .option s, b, a, f => by
    simp only [codecEncodeA, codecEncodeF]
    refine runs_bind (runs_loadBool m a) fun x _ => ?_
    dsimp only
    split
    · exact runs_bind (runs_loadVal m _ _) fun _ _ => runs_lift _ _
    · exact runs_ret rfl
  | .bytes, b, a, f => by
    simp only [codecEncodeA, codecEncodeF]
    exact runs_bind (runs_loadBytes m a) fun _ _ => runs_lift _ _
  | .ptr _ c, b, a, f => by
    simp only [codecEncodeA, codecEncodeF]
    refine runs_bind (runs_loadPtr m a) fun p _ => ?_
    cases p with
    | none => exact runs_ret rfl
    | some p => exact runs_codecEncode hsz hrec c b p f
  | .msg t, b, a, f => by
    simp only [codecEncodeA, codecEncodeF]
    refine runs_bind (runs_loadPtr m a) fun p _ => ?_
    cases p with
    | none => exact runs_ret rfl
    | some p => exact runs_bind (hsz t p) fun _ _ => hrec t _ p
  | .slice _ c, b, a, f => by
    simp only [codecEncodeA, codecEncodeF]
    refine runs_bind (runs_loadPtr m a) fun d _ => runs_bind (runs_loadInt m _) fun n _ => ?_
    exact runs_appendAll (fun b i => runs_bind (runs_lift _ _) fun _ _ => runs_codecEncode hsz hrec c b _ f) _ _
  | .map i kc vc _ _, b, a, f => by
    simp only [codecEncodeA, codecEncodeF]
    refine runs_bind (runs_loadPtr m a) fun p _ => runs_bind (runs_mapEntries m p) fun es _ =>
      runs_bind (runs_appendAll (fun b e => ?_) _ _) fun n _ => ?_
    · exact runs_bind (runs_codecSize hsz kc _ _) fun _ _ => runs_bind (runs_codecSize hsz kc _ _) fun _ _ =>
        runs_bind (runs_codecEncode hsz hrec kc _ _ _) fun _ _ => runs_codecEncode hsz hrec vc _ _ _
    · dsimp only
      split <;> exact runs_ret rfl

theorem runs_encodeMsg (lay : Lay) (env : Env) (m : Mem) :
    ∀ d t b a, RunsR (encodeMsgA lay env d t b a) m (encodeMsgF lay env m d t b a)
  | 0, _, _, _ => runs_error
  | d + 1, _, _, _ =>
    runs_appendAll (fun _ _ => runs_codecEncode (runs_sizeMsg lay env m d) (runs_encodeMsg lay env m d) _ _ _ _) _ _

/-! ### decode -/

/-- A decode function of `Model/Conc.lean` and the one of `Model/Flat.lean`. -/
def Agree (d : DecA) (f : DecF) : Prop := ∀ b m a, RunsD (d b a) m (f b m a)

theorem agree_scalar (s : Scalar) : Agree (decodeScalarA s) (decodeScalarF s) := by
  intro b m a
  simp only [decodeScalarA, decodeScalarF]
  split
  · exact runs_ret rfl
  · refine runs_bind (runs_lift _ _) fun r _ => ?_
    cases r with
    | ok v n => exact runs_bind (runs_storeVal m a v) fun _ _ => runs_ret rfl
    | err v e => exact runs_bind (runs_storeVal m a v) fun _ _ => runs_ret rfl

theorem agree_option (s : Scalar) : Agree (decodeOptionA s) (decodeOptionF s) := fun _ _ _ =>
  runs_bind (runs_store _ _ _ _) fun _ _ => agree_scalar s _ _ _

theorem runs_appendBytes (grow : Nat → Nat → Nat) (m : Mem) (a : Addr) (v : Bytes) :
    RunsW (appendBytesA grow a v) m (appendBytes grow m a v) := by
  refine runs_bind (runs_loadPtr m a) fun d _ => runs_bind (runs_loadInt m _) fun n _ => ?_
  dsimp only
  split
  · cases d with
    | none => exact runs_error
    | some d => exact runs_bind (runs_store _ _ _ _) fun _ _ => runs_store _ _ _ _
  · exact runs_alloc (runs_store _ _ _ _)

theorem out_mk' (m : Mem) (n : Nat) (e : Option Err) : ((Res.mk' m n e).out, (Res.mk' m n e).mem) = (outA n e, m) := by
  cases e <;> rfl

theorem agree_bytes (grow : Nat → Nat → Nat) : Agree (decodeBytesA grow) (decodeBytesF grow) := by
  intro b m a
  refine runs_bind (runs_lift _ _) fun r _ => runs_bind (runs_loadPtr m a) fun d _ => ?_
  cases d with
  | none =>
    exact runs_alloc (runs_bind (runs_store _ _ _ _) fun _ _ => runs_bind (runs_appendBytes _ _ _ _) fun _ _ => runs_ret (out_mk' _ _ _))
  | some d => exact runs_bind (runs_appendBytes _ _ _ _) fun _ _ => runs_ret (out_mk' _ _ _)

/-- Decode views of the same fields. -/
structure FieldAgree (g : DFieldA) (f : DFieldF) : Prop where
  num : g.num = f.num
  wt : g.wt = f.wt
  off : g.off = f.off
  dec : Agree g.dec f.dec

/-- Field by field. -/
inductive FieldsAgree : List DFieldA → List DFieldF → Prop
  | nil : FieldsAgree [] []
  | cons (g f gs fs) : FieldAgree g f → FieldsAgree gs fs → FieldsAgree (g :: gs) (f :: fs)

/-- The same for what is found. -/
def OptAgree : Option DFieldA → Option DFieldF → Prop
  | none, none => True
  | some g, some f => FieldAgree g f
  | _, _ => False

theorem index_agree {gs : List DFieldA} {fs : List DFieldF} (h : FieldsAgree gs fs) (n : Nat) :
    OptAgree (fieldIndexA gs n) (fieldIndexF fs n) := by
  have key : ∀ (x : Nat → Option DFieldA) (y : Nat → Option DFieldF), (∀ n, OptAgree (x n) (y n)) → ∀ n,
      OptAgree (gs.foldl (fun m f => fun n => if n = f.num then some f else m n) x n)
        (fs.foldl (fun m f => fun n => if n = f.num then some f else m n) y n) := by
    induction h with
    | nil => intro x y h n; exact h n
    | cons g f gs fs hg _ ih =>
      intro x y h n
      refine ih _ _ ?_ n
      intro n
      dsimp only
      rw [hg.num]
      split
      · exact hg
      · exact h n
  exact key (fun _ => none) (fun _ => none) (fun _ => trivial) n

theorem runs_structLoop {idx idxF} (h : ∀ n, OptAgree (idx n) (idxF n)) (b : Bytes) (a : Addr) :
    ∀ fuel offset m, RunsD (structLoopA idx b a fuel offset) m (structLoopF idxF b a fuel offset m) := by
  intro fuel
  induction fuel with
  | zero =>
    intro offset m
    unfold structLoopA structLoopF
    split
    · exact runs_error
    · exact runs_ret rfl
  | succ fuel ih =>
    intro offset m
    unfold structLoopA structLoopF
    split
    · refine runs_bind (runs_lift _ _) fun r _ => ?_
      dsimp only
      rcases decodeTag r with ⟨num, wt, n, err⟩
      cases err with
      | some e => exact runs_ret rfl
      | none =>
        dsimp only
        have hn := h num
        cases hi : idx num with
        | none =>
          cases hj : idxF num with
          | some f => rw [hi, hj] at hn; exact hn.elim
          | none =>
            refine runs_bind (runs_lift _ _) fun r _ => ?_
            rcases r with ⟨o, err⟩
            cases err with
            | some e => exact runs_ret rfl
            | none => exact ih _ _
        | some g =>
          cases hj : idxF num with
          | none => rw [hi, hj] at hn; exact hn.elim
          | some f =>
            rw [hi, hj] at hn
            obtain ⟨_, hw, ho, hd⟩ := hn
            dsimp only
            rw [hw]
            split
            · exact runs_ret rfl
            · refine runs_bind (runs_lift _ _) fun r _ => ?_
              cases r with
              | error e => exact runs_ret rfl
              | ok data =>
                dsimp only
                rw [ho]
                refine runs_bind (hd _ _ _) fun q _ => ?_
                rcases q with ⟨m', out⟩
                cases out with
                | ok n => exact ih _ _
                | error e => exact runs_ret rfl
    · exact runs_ret rfl

theorem agree_struct {gs : List DFieldA} {fs : List DFieldF} (h : FieldsAgree gs fs) : Agree (structDecodeA gs) (structDecodeF fs) :=
  fun _ _ _ => runs_structLoop (index_agree h) _ _ _ _ _

theorem runs_assign (m : Mem) (dst src : Addr) (n al : Nat) : RunsW (assignA dst src n al) m (assign m dst src n al) :=
  runs_bind (runs_load _ _ _ _) fun _ _ => runs_store _ _ _ _

theorem runs_growSlice (m : Mem) (a : Addr) (es al : Nat) : RunsW (growSliceA a es al) m (growSliceF m a es al) := by
  refine runs_bind (runs_loadPtr m a) fun d _ => runs_bind (runs_loadInt m _) fun len _ => runs_bind (runs_loadInt m _) fun cap _ =>
    runs_alloc ?_
  cases d with
  | none => exact runs_store _ _ _ _
  | some d => exact runs_bind (runs_assign _ _ _ _ _) fun _ _ => runs_store _ _ _ _

theorem runs_makeMap (m : Mem) (a : Addr) : RunsW (makeMapA a) m (makeMapF m a) := by
  refine runs_bind (runs_loadPtr m a) fun d _ => ?_
  cases d with
  | none => exact runs_alloc (runs_store _ _ _ _)
  | some d => exact runs_ret rfl

theorem runs_findKey (m : Mem) (ks : Shape) (k : Key) : ∀ es, RunsR (findKeyA ks k es) m (findKey m ks k es)
  | [] => runs_ret rfl
  | e :: es => by
    refine runs_bind (runs_loadVal m _ _) fun v _ => ?_
    dsimp only
    cases v.toKey? with
    | none => exact runs_error
    | some k' =>
      dsimp only
      split
      · exact runs_ret rfl
      · exact runs_findKey m ks k es

theorem runs_mapAssign (m : Mem) (ks vs : Shape) (p : Option Addr) (ka : Addr) :
    Runs id (mapAssignA ks vs p ka) m (mapAssignF m ks vs p ka) := by
  cases p with
  | none => exact runs_error
  | some p =>
    refine runs_bind (runs_mapEntries m (some p)) fun es hes => runs_bind (runs_loadVal m _ _) fun v _ => ?_
    dsimp only
    cases v.toKey? with
    | none => exact runs_error
    | some k =>
      refine runs_bind (runs_findKey m ks _ es) fun r _ => ?_
      cases r with
      | some vb => exact runs_ret rfl
      | none =>
        refine runs_bind (runs_load _ _ _ _) fun kcs _ => ?_
        intro z hz
        cases hz
        have hb : m[p.blk]? = some (.map es) := by
          simp only [mapEntries] at hes
          split at hes
          · rename_i es' h
            split at hes
            · cases hes; exact h
            · cases hes
          · cases hes
        have hlt : p.blk < m.length := by
          rcases Nat.lt_or_ge p.blk m.length with h | h
          · exact h
          · rw [List.getElem?_eq_none h] at hb; cases hb
        have h2 : (m ++ [Obj.mem kcs, Obj.mem (zeroCells vs.size)])[p.blk]? = some (.map es) := by
          rw [List.getElem?_append_left hlt]; exact hb
        show exec (.insert p.blk (m.length, (m ++ [Obj.mem kcs]).length) (.ret _)) ((m ++ [Obj.mem kcs]) ++ [_]) = _
        simp only [List.append_assoc, List.singleton_append, exec, insertEntry, h2, bind, Except.bind]
        simp

/-! Memory keeps its size. -/

/-- Every memory of `m` is as long in `m'`. -/
def SameSize (m m' : Mem) : Prop :=
  ∀ (b : Nat) (cs : List Cell), m[b]? = some (.mem cs) → ∃ cs', m'[b]? = some (.mem cs') ∧ cs'.length = cs.length

theorem SameSize.refl (m : Mem) : SameSize m m := fun _ cs h => ⟨cs, h, rfl⟩
theorem SameSize.trans {m m' m'' : Mem} (h : SameSize m m') (h' : SameSize m' m'') : SameSize m m'' := by
  intro b cs hb
  obtain ⟨cs', h1, h2⟩ := h b cs hb
  obtain ⟨cs'', h3, h4⟩ := h' b cs' h1
  exact ⟨cs'', h3, by omega⟩

theorem sameSize_append (m : Mem) (o : Obj) : SameSize m (m ++ [o]) := by
  intro b cs hb
  have hlt : b < m.length := by
    rcases Nat.lt_or_ge b m.length with h | h
    · exact h
    · rw [List.getElem?_eq_none h] at hb; cases hb
  exact ⟨cs, by rw [List.getElem?_append_left hlt]; exact hb, rfl⟩

theorem sameSize_store {m m' : Mem} {a : Addr} {new : List Cell} {al : Nat} (h : store m a new al = .ok m') : SameSize m m' := by
  unfold store at h
  split at h
  · cases h
  · split at h
    · rename_i cs hcs
      split at h
      · cases h
        intro b cs' hb
        by_cases he : a.blk = b
        · subst he
          rw [hcs] at hb; cases hb
          have hlt := (List.getElem?_eq_some_iff.mp hcs).1
          exact ⟨_, List.getElem?_set_self hlt, by simp only [splice, List.length_append, List.length_take, List.length_drop]; omega⟩
        · exact ⟨cs', by rw [List.getElem?_set_ne he]; exact hb, rfl⟩
      · cases h
    · cases h

theorem sameSize_insert {m m' : Mem} {b : Nat} {e : Nat × Nat} (h : insertEntry m b e = .ok m') : SameSize m m' := by
  unfold insertEntry at h
  split at h
  · rename_i es hes
    cases h
    intro b' cs hb
    by_cases he : b = b'
    · subst he; rw [hes] at hb; cases hb
    · exact ⟨cs, by rw [List.getElem?_set_ne he]; exact hb, rfl⟩
  · cases h

theorem exec_sameSize {α : Type} (x : Act α) : ∀ {m m' : Mem} {y : α}, exec x m = .ok (y, m') → SameSize m m' := by
  induction x with
  | ret x => intro m m' y h; cases h; exact .refl _
  | fail e => intro m m' y h; cases h
  | load a n al k ih =>
    intro m m' y h
    simp only [exec, bind, Except.bind] at h
    split at h
    · cases h
    · exact ih _ h
  | store a cs al k ih =>
    intro m m' y h
    simp only [exec, bind, Except.bind] at h
    split at h
    · cases h
    · rename_i hs; exact (sameSize_store hs).trans (ih h)
  | data a n k ih =>
    intro m m' y h
    simp only [exec, bind, Except.bind] at h
    split at h
    · cases h
    · exact ih _ h
  | alloc o k ih => intro m m' y h; exact (sameSize_append m o).trans (ih _ h)
  | entries a k ih =>
    intro m m' y h
    simp only [exec, bind, Except.bind] at h
    split at h
    · cases h
    · exact ih _ h
  | insert b e k ih =>
    intro m m' y h
    simp only [exec, bind, Except.bind] at h
    split at h
    · cases h
    · rename_i hs; exact (sameSize_insert hs).trans (ih h)
  | get n k ih => intro m m' y h; exact (sameSize_append m _).trans (ih _ h)
  | put n b k ih =>
    intro m m' y h
    simp only [exec] at h
    split at h
    · exact ih h
    · cases h

theorem store_all {m m' : Mem} {s n : Nat} {cs : List Cell} (h : m[s]? = some (.mem cs)) (hl : cs.length = n)
    (hs : store m ⟨s, 0⟩ (zeroCells n) 1 = .ok m') : m'[s]? = some (.mem (zeroCells n)) := by
  have hlt := (List.getElem?_eq_some_iff.mp h).1
  simp only [store, h] at hs
  split at hs
  · cases hs
  · split at hs
    · cases hs
      rw [List.getElem?_set_self hlt]
      simp [splice, zeroCells, hl]
    · cases hs

/-- map.go:140-141. -/
theorem runs_release {m : Mem} {s n : Nat} {cs : List Cell} (h : m[s]? = some (.mem cs)) (hl : cs.length = n) (x : Except Err Nat)
    (q : Mem → Res) (hq : ∀ m, ((q m).out, (q m).mem) = (x, m)) :
    RunsD ((storeA ⟨s, 0⟩ (zeroCells n) 1).bind fun _ => .put n s (.ret x)) m
      ((store m ⟨s, 0⟩ (zeroCells n) 1).bind fun m => .ok (q m)) := by
  refine runs_bind (runs_store _ _ _ _) fun m' hm' => ?_
  intro z hz
  cases hz
  dsimp only
  simp only [exec, store_all h hl hm', if_true, hq]

theorem agree_codec (grow : Nat → Nat → Nat) (ms : TypeId → Nat) {rec recF} (hrec : ∀ t, Agree (rec t) (recF t)) :
    ∀ c, Agree (codecDecodeA grow ms rec c) (codecDecodeF grow ms recF c)
  | .normal s => by simpa only [codecDecodeA, codecDecodeF] using agree_scalar s
  | .required s => by simpa only [codecDecodeA, codecDecodeF] using agree_scalar s
  | .option s => by simpa only [codecDecodeA, codecDecodeF] using agree_option s
  | .bytes => by simpa only [codecDecodeA, codecDecodeF] using agree_bytes grow
  | .ptr _ c => by
    intro b m a
    simp only [codecDecodeA, codecDecodeF]
    refine runs_bind (runs_loadPtr m a) fun p _ => ?_
    cases p with
    | none => exact runs_alloc (runs_bind (runs_store _ _ _ _) fun _ _ => agree_codec grow ms hrec c _ _ _)
    | some p => exact agree_codec grow ms hrec c _ _ _
  | .msg t => by
    intro b m a
    simp only [codecDecodeA, codecDecodeF]
    refine runs_bind (φ := id) ?_ fun pm _ => ?_
    · refine runs_bind (runs_loadPtr m a) fun p _ => ?_
      cases p with
      | none => exact runs_alloc (runs_bind (runs_store _ _ _ _) fun _ _ => runs_ret rfl)
      | some p => exact runs_ret rfl
    · rcases pm with ⟨p, m1⟩
      rcases decodeVarint b with ⟨_, n, err⟩
      cases err with
      | some e => exact runs_ret rfl
      | none =>
        refine runs_bind (runs_lift _ _) fun r _ => runs_bind (hrec t _ _ _) fun q _ => ?_
        rcases q with ⟨m', out⟩
        cases out <;> exact runs_ret rfl
  | .slice _ c => by
    intro b m a
    simp only [codecDecodeA, codecDecodeF]
    refine runs_bind (runs_loadInt m _) fun i _ => runs_bind (runs_loadInt m _) fun cap _ => ?_
    have rest : ∀ m1, RunsD (Act.bind (loadPtrA a) fun d => Act.bind (.lift (index d i (alignedSize c.shape))) fun e =>
          Act.bind (codecDecodeA grow ms rec c b e) fun
            | .ok n => Act.bind (storeA (a.add 8) (intCells (i + 1)) 8) fun _ => .ret (.ok n)
            | .error e => .ret (.error e)) m1
        ((loadPtr m1 a).bind fun d => (index d i (alignedSize c.shape)).bind fun e =>
          (codecDecodeF grow ms recF c b m1 e).bind fun
            | ⟨m, .ok n⟩ => (store m (a.add 8) (intCells (i + 1)) 8).bind fun m => .ok ⟨m, .ok n⟩
            | ⟨m, .error e⟩ => .ok ⟨m, .error e⟩) := by
      intro m1
      refine runs_bind (runs_loadPtr m1 a) fun d _ => runs_bind (runs_lift _ _) fun e _ =>
        runs_bind (agree_codec grow ms hrec c _ _ _) fun q _ => ?_
      rcases q with ⟨m', out⟩
      cases out with
      | ok n => exact runs_bind (runs_store _ _ _ _) fun _ _ => runs_ret rfl
      | error e => exact runs_ret rfl
    dsimp only
    by_cases h : i = cap
    · rw [if_pos h, if_pos h]
      exact runs_bind (runs_growSlice _ _ _ _) fun m1 _ => rest m1
    · rw [if_neg h, if_neg h]
      exact rest m
  | .map i kc vc kd vd => by
    intro b m a
    simp only [codecDecodeA, codecDecodeF]
    refine runs_bind (runs_makeMap m a) fun m1 _ => ?_
    dsimp only
    split
    · exact runs_ret rfl
    · intro z hz
      show exec (Act.bind (.ret m1.length) _) (m1 ++ [_]) = _
      revert z
      show RunsD (Act.bind (.ret m1.length) _) (m1 ++ [.mem (zeroCells (entrySize kc.shape vc.shape))]) _
      simp only [Act.bind]
      have hsc : (m1 ++ [Obj.mem (zeroCells (entrySize kc.shape vc.shape))])[m1.length]? =
          some (.mem (zeroCells (entrySize kc.shape vc.shape))) := by simp
      have hzl : (zeroCells (entrySize kc.shape vc.shape)).length = entrySize kc.shape vc.shape := by simp [zeroCells]
      simp only [alloc]
      generalize m1 ++ [Obj.mem (zeroCells (entrySize kc.shape vc.shape))] = m2 at hsc ⊢
      generalize m1.length = s at hsc ⊢
      rcases decodeVarint b with ⟨_, nl, err⟩
      cases err with
      | some e => exact runs_ret rfl
      | none =>
        dsimp only
        have hf : FieldsAgree
            [{ num := wtNumber i.eKey, wt := wtType i.eKey, off := 0, dec := codecDecodeA grow ms rec kd },
             { num := wtNumber i.eVal, wt := wtType i.eVal, off := valueOffset kc.shape vc.shape,
               dec := codecDecodeA grow ms rec vd }]
            [{ num := wtNumber i.eKey, wt := wtType i.eKey, off := 0, dec := codecDecodeF grow ms recF kd },
             { num := wtNumber i.eVal, wt := wtType i.eVal, off := valueOffset kc.shape vc.shape,
               dec := codecDecodeF grow ms recF vd }] :=
          .cons _ _ _ _ ⟨rfl, rfl, rfl, agree_codec grow ms hrec kd⟩
            (.cons _ _ _ _ ⟨rfl, rfl, rfl, agree_codec grow ms hrec vd⟩ .nil)
        refine runs_bind (runs_lift _ _) fun r _ => runs_bind (agree_struct hf _ _ _) fun q hq => ?_
        obtain ⟨cs1, g1, g2⟩ := exec_sameSize _ (agree_struct hf _ _ _ q hq) _ _ hsc
        rcases q with ⟨m3, out⟩
        dsimp only at g1 g2 ⊢
        cases out with
        | error e =>
          exact runs_release g1 (by omega) (.error e) (fun m => ⟨m, .error e⟩) fun _ => rfl
        | ok n =>
          refine runs_bind (runs_loadPtr m3 a) fun p _ => runs_bind (runs_mapAssign _ _ _ _ _) fun vm hvm => ?_
          obtain ⟨cs2, g3, g4⟩ := exec_sameSize _ (runs_mapAssign _ _ _ _ _ vm hvm) _ _ g1
          rcases vm with ⟨v, m4⟩
          refine runs_bind (runs_assign _ _ _ _ _) fun m5 hm5 => ?_
          obtain ⟨cs3, g5, g6⟩ := exec_sameSize _ (runs_assign _ _ _ _ _ m5 hm5) _ _ g3
          exact runs_release g5 (by omega) (.ok (n + nl)) (fun m => ⟨m, .ok (n + nl)⟩) fun _ => rfl

theorem agree_decodeMsg (grow : Nat → Nat → Nat) (lay : Lay) (env : Env) :
    ∀ d t, Agree (decodeMsgA grow lay env d t) (decodeMsgF grow lay env d t)
  | 0, _ => fun _ _ _ => runs_error
  | d + 1, t => by
    have h : ∀ fs : List Field, FieldsAgree (dfieldsA grow lay (decodeMsgA grow lay env d) t fs)
        (dfieldsF grow lay (decodeMsgF grow lay env d) t fs) := by
      intro fs
      induction fs with
      | nil => exact .nil
      | cons f fs ih => exact .cons _ _ _ _ ⟨rfl, rfl, rfl, agree_codec grow lay.size (agree_decodeMsg grow lay env d) f.codec⟩ ih
    exact agree_struct (h (env t).fields)

/-- What a call gives when it runs alone: the outcome and the memory. -/
def callF (grow : Nat → Nat → Nat) (lay : Lay) (env : Env) (m : Mem) : Req → Except Fault (Outcome × Mem)
  | .size d t a => do return (.size (← sizeMsgF lay env m d t a), m)
  | .marshal d t a => do return (.marshal (← marshalF lay env m d t a), m)
  | .unmarshal b t a => do
    let (m, err) ← unmarshalF grow lay env b t m a
    return (.unmarshal err, m)

theorem runs_req (grow : Nat → Nat → Nat) (lay : Lay) (env : Env) (m : Mem) (r : Req) :
    Runs id (reqAct grow lay env r) m (callF grow lay env m r) := by
  cases r with
  | size d t a => exact runs_bind (runs_sizeMsg lay env m d t a) fun _ _ => runs_ret rfl
  | marshal d t a =>
    intro z hz
    simp only [callF, marshalF, bind, Except.bind, pure, Except.pure] at hz
    rcases hs : sizeMsgF lay env m d t a with e | n <;> rw [hs] at hz
    · cases hz
    rcases he : encodeMsgF lay env m d t [] a with e | o <;> simp only [he] at hz
    · cases hz
    cases hz
    simp only [reqAct, act_bind, exec_bind, runs_sizeMsg lay env m d t a n hs, runs_encodeMsg lay env m d t [] a o he, Except.bind]
    rfl
  | unmarshal b t a =>
    simp only [callF, reqAct, unmarshalF]
    split
    · exact runs_ret rfl
    · intro z hz
      simp only [bind, Except.bind, pure, Except.pure] at hz
      rcases hs : decodeMsgF grow lay env (b.length + 1) t b m a with e | q <;> rw [hs] at hz
      · cases hz
      have := agree_decodeMsg grow lay env (b.length + 1) t b m a q hs
      simp only [act_bind, exec_bind, this, Except.bind]
      rcases q with ⟨m', out⟩
      cases out with
      | error e => cases hz; rfl
      | ok n =>
        dsimp only at hz ⊢
        by_cases hn : n < b.length
        · rw [if_pos hn] at hz ⊢; cases hz; rfl
        · rw [if_neg hn] at hz ⊢; cases hz; rfl

end Pb.Flat
