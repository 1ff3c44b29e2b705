import Verif.Model.Cost
import Verif.Model.Api
import Verif.Proofs.Depth
/-
Dropping the counters of `Model/Cost.lean` gives the functions of `Model/Codec.lean`.
-/
namespace Pb

/-- `x` with the counter dropped is `y`. -/
def Drops {α : Type} (x : Except Fault (α × Nat)) (y : Except Fault α) : Prop :=
  match x, y with
  | .ok (a, _), .ok a' => a = a'
  | .error e, .error e' => e = e'
  | _, _ => False

theorem drops_ok {α : Type} (a : α) (k : Nat) : Drops (.ok (a, k)) (.ok a) := rfl
theorem drops_error {α : Type} (e : Fault) : Drops (α := α) (.error e) (.error e) := rfl

theorem drops_bind {α β : Type} {x : Except Fault (α × Nat)} {y : Except Fault α} {f : α × Nat → Except Fault (β × Nat)}
    {g : α → Except Fault β} (h : Drops x y) (hf : ∀ a k, Drops (f (a, k)) (g a)) : Drops (x >>= f) (y >>= g) := by
  match x, y, h with
  | .ok (a, k), .ok _, rfl => exact hf a k
  | .error e, .error _, rfl => exact drops_error e

theorem drops_lift {α β : Type} {x : Except Fault α} {f : α → Except Fault (β × Nat)} {g : α → Except Fault β}
    (hf : ∀ a, Drops (f a) (g a)) : Drops (x >>= f) (x >>= g) := by
  cases x with
  | ok a => exact hf a
  | error e => exact drops_error e

theorem drops_const {α : Type} (x : Except Fault α) (k : Nat) : Drops (do return (← x, k)) x := by
  cases x with
  | ok a => exact drops_ok _ _
  | error e => exact drops_error e

theorem drops_iff {α : Type} {x : Except Fault (α × Nat)} {y : Except Fault α} (h : Drops x y) (a : α) :
    y = .ok a ↔ ∃ k, x = .ok (a, k) := by
  match x, y, h with
  | .ok (b, k), .ok _, rfl =>
    constructor
    · intro e; cases e; exact ⟨k, rfl⟩
    · rintro ⟨k', e⟩; cases e; rfl
  | .error e, .error _, rfl =>
    constructor
    · intro e; cases e
    · rintro ⟨k', e⟩; cases e

/-! ### decode -/

/-- The fields agree. -/
def IdxDrops (ik : Nat → Option CostField) (i : Nat → Option DField) : Prop :=
  ∀ n, (ik n = none ∧ i n = none) ∨ ∃ fk f, ik n = some fk ∧ i n = some f ∧ fk.wt = f.wt ∧ fk.offset = f.offset ∧
    ∀ b v, Drops (fk.dec b v) (f.dec b v)

theorem structLoop_drops {ik : Nat → Option CostField} {i : Nat → Option DField} (h : IdxDrops ik i) (b : Bytes) :
    ∀ fuel offset vs k, Drops (structLoopK ik b fuel offset vs k) (structLoop i b fuel offset vs) := by
  intro fuel
  induction fuel with
  | zero =>
    intro offset vs k
    unfold structLoopK structLoop
    split
    · exact drops_error _
    · exact drops_ok _ _
  | succ fuel ih =>
    intro offset vs k
    unfold structLoopK structLoop
    split
    · refine drops_lift fun rest => ?_
      rcases decodeTag rest with ⟨num, wt, n, _ | e⟩
      · simp only
        rcases h num with ⟨h1, h2⟩ | ⟨fp, f, h1, h2, hw, ho, hd⟩
        · simp only [h1, h2]
          refine drops_lift fun r => ?_
          rcases r with ⟨o', _ | e⟩
          · exact ih _ _ _
          · exact drops_ok _ _
        · simp only [h1, h2, hw, ho]
          split
          · exact drops_ok _ _
          · refine drops_lift fun r => ?_
            cases r with
            | error e => exact drops_ok _ _
            | ok data =>
              refine drops_lift fun v => ?_
              refine drops_bind (hd _ _) fun r c => ?_
              cases r with
              | ok v n => exact ih _ _ _
              | err v e => exact drops_ok _ _
      · exact drops_ok _ _
    · exact drops_ok _ _

/-- One field agrees. -/
def FieldDrops (fp : CostField) (f : DField) : Prop :=
  fp.num = f.num ∧ fp.wt = f.wt ∧ fp.offset = f.offset ∧ ∀ b v, Drops (fp.dec b v) (f.dec b v)

theorem fieldIndexK_eq (fs : List CostField) :
    fieldIndexK fs = fun n => fs.reverse.find? fun f => decide (n = f.num) := by
  unfold fieldIndexK
  rw [List.foldl_eq_foldr_reverse]
  induction fs.reverse with
  | nil => rfl
  | cons f l ih =>
    funext n
    simp only [List.foldr_cons, List.find?_cons, ih]
    by_cases h : n = f.num <;> simp [h]

theorem idxDrops_of_fields {α : Type} (l : List α) (g : α → CostField) (h : α → DField)
    (hd : ∀ x ∈ l, FieldDrops (g x) (h x)) : IdxDrops (fieldIndexK (l.map g)) (fieldIndex (l.map h)) := by
  intro n
  rw [fieldIndexK_eq, fieldIndex_eq]
  simp only [← List.map_reverse]
  have hd' : ∀ x ∈ l.reverse, FieldDrops (g x) (h x) := fun x hx => hd x (by simpa using hx)
  revert hd'
  generalize l.reverse = l'
  intro hd'
  induction l' with
  | nil => exact .inl ⟨rfl, rfl⟩
  | cons x l' ih =>
    have hx := hd' x (by simp)
    simp only [List.map_cons, List.find?_cons, hx.1]
    by_cases hn : n = (h x).num
    · simp only [hn, decide_true]
      exact .inr ⟨_, _, rfl, rfl, hx.2.1, hx.2.2.1, hx.2.2.2⟩
    · simp only [hn, decide_false]
      exact ih fun y hy => hd' y (by simp [hy])

theorem structDecode_drops {α : Type} (l : List α) (g : α → CostField) (h : α → DField)
    (hd : ∀ x ∈ l, FieldDrops (g x) (h x)) (b : Bytes) (v : Val) :
    Drops (structDecodeK (l.map g) b v) (structDecode (l.map h) b v) := by
  unfold structDecodeK structDecode
  cases v with
  | struct vs => exact structLoop_drops (idxDrops_of_fields l g h hd) b _ _ _ _
  | _ => exact drops_error _

theorem codecDecode_drops {zeros : TypeId → Val} {recK : TypeId → Bytes → Val → Except Fault (DRes × Nat)}
    {rec : TypeId → Bytes → Val → Except Fault DRes} (hrec : ∀ t b v, Drops (recK t b v) (rec t b v)) :
    ∀ (c : Codec) (b : Bytes) (v : Val), Drops (codecDecodeK zeros recK c b v) (codecDecode zeros rec c b v) := by
  intro c
  induction c with
  | normal s => exact fun b v => drops_const _ _
  | required s => exact fun b v => drops_const _ _
  | option s => exact fun b v => drops_const _ _
  | bytes => exact fun b v => drops_const _ _
  | ptr zero c ih =>
    intro b v
    unfold codecDecodeK codecDecode
    cases v with
    | nilp => exact drops_bind (ih _ _) fun _ _ => drops_ok _ _
    | ptr v => exact drops_bind (ih _ _) fun _ _ => drops_ok _ _
    | _ => exact drops_error _
  | msg t =>
    intro b v
    unfold codecDecodeK codecDecode
    have key : ∀ v : Val, Drops
        (match decodeVarint b with
          | (_, n, err) =>
            match err with
            | some e => pure (DRes.err (.ptr v) e, scanned b)
            | none => do
              match ← recK t (← goFrom b n) v with
              | (.ok v l, k) => return (.ok (.ptr v) (n + l), scanned b + k)
              | (.err v e, k) => return (.err (.ptr v) e, scanned b + k))
        (match decodeVarint b with
          | (_, n, err) =>
            match err with
            | some e => pure (DRes.err (.ptr v) e)
            | none => do
              match ← rec t (← goFrom b n) v with
              | .ok v l => return .ok (.ptr v) (n + l)
              | .err v e => return .err (.ptr v) e) := by
      intro v
      rcases decodeVarint b with ⟨_, n, _ | e⟩
      · refine drops_lift fun rest => ?_
        refine drops_bind (hrec _ _ _) fun r c => ?_
        cases r with
        | ok v n => exact drops_ok _ _
        | err v e => exact drops_ok _ _
      · exact drops_ok _ _
    cases v with
    | nilp => exact key _
    | ptr v => exact key _
    | _ => exact drops_error _
  | slice zero c ih =>
    intro b v
    unfold codecDecodeK codecDecode
    cases v with
    | slice n es sp =>
      simp only
      cases growIfFull zero es sp with
      | nil => exact drops_error _
      | cons slot sp' =>
        refine drops_bind (ih _ _) fun r c => ?_
        cases r with
        | ok v n => exact drops_ok _ _
        | err v e => exact drops_ok _ _
    | _ => exact drops_error _
  | map i kc vc kd vd _ _ ihk ihv =>
    intro b v
    unfold codecDecodeK codecDecode
    cases v with
    | map n m =>
      simp only
      split
      · exact drops_ok _ _
      · rcases decodeVarint b with ⟨_, nl, _ | e⟩
        · refine drops_lift fun rest => ?_
          refine drops_bind (structDecode_drops
            [((({ num := wtNumber i.eKey, wt := wtType i.eKey, offset := 0, dec := codecDecodeK zeros recK kd } : CostField)),
              ({ num := wtNumber i.eKey, wt := wtType i.eKey, offset := 0, dec := codecDecode zeros rec kd } : DField)),
             ((({ num := wtNumber i.eVal, wt := wtType i.eVal, offset := 1, dec := codecDecodeK zeros recK vd } : CostField)),
              ({ num := wtNumber i.eVal, wt := wtType i.eVal, offset := 1, dec := codecDecode zeros rec vd } : DField))]
            Prod.fst Prod.snd (by
              intro x hx
              simp only [List.mem_cons, List.not_mem_nil, or_false] at hx
              rcases hx with rfl | rfl
              · exact ⟨rfl, rfl, rfl, ihk⟩
              · exact ⟨rfl, rfl, rfl, ihv⟩) rest _) fun r c => ?_
          cases r with
          | err v e => exact drops_ok _ _
          | ok v k =>
            cases v with
            | struct vs =>
              match vs with
              | [] => exact drops_error _
              | [_] => exact drops_error _
              | [k, v] =>
                simp only
                cases k.toKey? with
                | none => exact drops_error _
                | some k => exact drops_ok _ _
              | _ :: _ :: _ :: _ => exact drops_error _
            | _ => exact drops_error _
        · exact drops_ok _ _
    | _ => exact drops_error _

theorem decodeMsg_drops (env : Env) : ∀ (d : Nat) (t : TypeId) (b : Bytes) (v : Val),
    Drops (decodeMsgK env d t b v) (decodeMsg env d t b v) := by
  intro d
  induction d with
  | zero => exact fun t b v => drops_error _
  | succ d ih =>
    intro t b v
    exact structDecode_drops (env t).fields _ _ (fun f _ => ⟨rfl, rfl, rfl, codecDecode_drops ih f.codec⟩) b v

/-! ### size and encode -/

theorem sumSizes_drops {α : Type} {sk : α → Except Fault (Nat × Nat)} {s : α → Except Fault Nat} (h : ∀ x, Drops (sk x) (s x)) :
    ∀ (l : List α) (n k : Nat), Drops (sumSizesK sk n k l) (sumSizes s n l)
  | [], _, _ => drops_ok _ _
  | x :: l, n, k => by
    unfold sumSizesK sumSizes
    exact drops_bind (h x) fun _ _ => sumSizes_drops h l _ _

theorem codecSize_drops {recK : TypeId → Val → Except Fault (Nat × Nat)} {rec : TypeId → Val → Except Fault Nat}
    (hrec : ∀ t v, Drops (recK t v) (rec t v)) :
    ∀ (c : Codec) (v : Val) (f : FTag), Drops (codecSizeK recK c v f) (codecSize rec c v f) := by
  intro c
  induction c with
  | normal s => exact fun v f => drops_const _ _
  | required s => exact fun v f => drops_const _ _
  | option s => exact fun v f => drops_const _ _
  | bytes => exact fun v f => drops_const _ _
  | ptr zero c ih =>
    intro v f
    cases v with
    | nilp => exact drops_ok _ _
    | ptr v => exact ih _ _
    | _ => exact drops_error _
  | msg t =>
    intro v f
    cases v with
    | nilp => exact drops_ok _ _
    | ptr v => exact drops_bind (hrec _ _) fun _ _ => drops_ok _ _
    | _ => exact drops_error _
  | slice zero c ih =>
    intro v f
    cases v with
    | slice n es sp => exact sumSizes_drops (fun e => ih e f) _ _ _
    | _ => exact drops_error _
  | map i kc vc kd vd ihk ihv _ _ =>
    intro v f
    unfold codecSizeK codecSize
    cases v with
    | map n m =>
      refine drops_bind (sumSizes_drops (fun e => ?_) _ _ _) fun n k => ?_
      · refine drops_bind (ihk _ _) fun _ _ => ?_
        refine drops_bind (ihv _ _) fun _ _ => ?_
        exact drops_ok _ _
      simp only
      split
      · exact drops_ok _ _
      · exact drops_ok _ _
    | _ => exact drops_error _

theorem sizeMsg_drops (env : Env) : ∀ (d : Nat) (t : TypeId) (v : Val), Drops (sizeMsgK env d t v) (sizeMsg env d t v) := by
  intro d
  induction d with
  | zero => exact fun t v => drops_error _
  | succ d ih =>
    intro t v
    exact sumSizes_drops (fun f => drops_lift fun _ => codecSize_drops ih _ _ _) _ _ _

theorem appendAll_drops {α : Type} {ek : Bytes → α → Except Fault (Bytes × Nat)} {e : Bytes → α → Except Fault Bytes}
    (h : ∀ b x, Drops (ek b x) (e b x)) :
    ∀ (l : List α) (b : Bytes) (k : Nat), Drops (appendAllK ek b k l) (appendAll e b l)
  | [], _, _ => drops_ok _ _
  | x :: l, b, k => by
    unfold appendAllK appendAll
    exact drops_bind (h b x) fun _ _ => appendAll_drops h l _ _

theorem codecEncode_drops {szK : TypeId → Val → Except Fault (Nat × Nat)} {sz : TypeId → Val → Except Fault Nat}
    {recK : TypeId → Bytes → Val → Except Fault (Bytes × Nat)} {rec : TypeId → Bytes → Val → Except Fault Bytes}
    (hsz : ∀ t v, Drops (szK t v) (sz t v)) (hrec : ∀ t b v, Drops (recK t b v) (rec t b v)) :
    ∀ (c : Codec) (b : Bytes) (v : Val) (f : FTag), Drops (codecEncodeK szK recK c b v f) (codecEncode sz rec c b v f) := by
  intro c
  induction c with
  | normal s => exact fun b v f => drops_const _ _
  | required s => exact fun b v f => drops_const _ _
  | option s => exact fun b v f => drops_const _ _
  | bytes => exact fun b v f => drops_const _ _
  | ptr zero c ih =>
    intro b v f
    cases v with
    | nilp => exact drops_ok _ _
    | ptr v => exact ih _ _ _
    | _ => exact drops_error _
  | msg t =>
    intro b v f
    unfold codecEncodeK codecEncode
    cases v with
    | nilp => exact drops_ok _ _
    | ptr v =>
      refine drops_bind (hsz _ _) fun n k => ?_
      have := hrec t (appendVarint (appendVarint b f.wiretag) (BitVec.ofNat 64 n)) v
      simp only
      revert this
      generalize recK t (appendVarint (appendVarint b f.wiretag) (BitVec.ofNat 64 n)) v = x
      generalize rec t (appendVarint (appendVarint b f.wiretag) (BitVec.ofNat 64 n)) v = y
      intro h
      match x, y, h with
      | .ok (a, k), .ok _, rfl => exact drops_ok _ _
      | .error e, .error _, rfl => exact drops_error e
    | _ => exact drops_error _
  | slice zero c ih =>
    intro b v f
    cases v with
    | slice n es sp => exact appendAll_drops (fun b e => ih b e f) _ _ _
    | _ => exact drops_error _
  | map i kc vc kd vd ihk ihv _ _ =>
    intro b v f
    unfold codecEncodeK codecEncode
    cases v with
    | map n m =>
      refine drops_bind (appendAll_drops (fun b e => ?_) _ _ _) fun n k => ?_
      · refine drops_bind (codecSize_drops hsz _ _ _) fun _ _ => ?_
        refine drops_bind (codecSize_drops hsz _ _ _) fun _ _ => ?_
        refine drops_bind (ihk _ _ _) fun b' k => ?_
        have := ihv b' e.2 i.val
        simp only
        revert this
        generalize codecEncodeK szK recK vc b' e.2 i.val = x
        generalize codecEncode sz rec vc b' e.2 i.val = y
        intro h
        match x, y, h with
        | .ok (a, k), .ok _, rfl => exact drops_ok _ _
        | .error e, .error _, rfl => exact drops_error e
      · simp only
        split
        · exact drops_ok _ _
        · exact drops_ok _ _
    | _ => exact drops_error _

theorem encodeMsg_drops (env : Env) : ∀ (d : Nat) (t : TypeId) (b : Bytes) (v : Val),
    Drops (encodeMsgK env d t b v) (encodeMsg env d t b v) := by
  intro d
  induction d with
  | zero => exact fun t b v => drops_error _
  | succ d ih =>
    intro t b v
    exact appendAll_drops (fun b f => drops_lift fun _ => codecEncode_drops (sizeMsg_drops env d) ih _ _ _ _) _ _ _

/-! ### API -/

theorem size_drops (env : Env) (a : Arg) : Drops (sizeK env a) (size env a) := by
  cases a with
  | msg t v => exact sizeMsg_drops env _ t v
  | nilMsg t => exact drops_ok _ _
  | _ => exact drops_error _

theorem marshal_drops (env : Env) (a : Arg) : Drops (marshalK env a) (marshal env a) := by
  cases a with
  | msg t v =>
    refine drops_bind (sizeMsg_drops env _ t v) fun n k => ?_
    refine drops_bind (encodeMsg_drops env _ t [] v) fun n k => ?_
    exact drops_ok _ _
  | nilMsg t => exact drops_ok _ _
  | nonPtr => exact drops_ok _ _
  | _ => exact drops_error _

theorem unmarshal_drops (env : Env) (b : Bytes) (a : Arg) : Drops (unmarshalK env b a) (unmarshal env b a) := by
  unfold unmarshalK unmarshal
  split
  · exact drops_ok _ _
  · cases a with
    | msg t v =>
      refine drops_bind (decodeMsg_drops env _ t b v) fun r k => ?_
      cases r with
      | err v e => exact drops_ok _ _
      | ok v n =>
        simp only
        split
        · exact drops_ok _ _
        · exact drops_ok _ _
    | nilIface => exact drops_error _
    | _ => exact drops_ok _ _

end Pb
