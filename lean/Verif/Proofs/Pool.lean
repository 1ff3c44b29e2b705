import Verif.Model.Pool
import Verif.Proofs.Depth
/-
Lemmas for C42: a goroutine owns the scratch structs it has taken and not yet put back.
-/
namespace Pb
open Spec

/-- The scratch structs a goroutine owns, and their contents. -/
abbrev Own := Nat → Option Val

def Own.upd (o : Own) (a : Nat) (v : Option Val) : Own := fun x => if x = a then v else o x

/-- `o'` has everything `o` has. -/
def Own.le (o o' : Own) : Prop := ∀ a v, o a = some v → o' a = some v

theorem Own.le_refl (o : Own) : o.le o := fun _ _ h => h
theorem Own.le_trans {o o' o'' : Own} (h : o.le o') (h' : o'.le o'') : o.le o'' := fun a v e => h' a v (h a v e)
theorem Own.le_upd {o o' : Own} {a : Nat} {v : Option Val} (h : o.le o') (ha : o a = none) : o.le (o'.upd a v) := by
  intro x w e
  unfold Own.upd
  by_cases hx : x = a
  · subst hx; rw [ha] at e; simp at e
  · rw [if_neg hx]; exact h x w e

theorem Own.upd_same (o : Own) (a : Nat) (v : Option Val) : o.upd a v a = v := by simp [Own.upd]
theorem Own.upd_other (o : Own) {a x : Nat} (v : Option Val) (h : x ≠ a) : o.upd a v x = o x := by simp [Own.upd, h]

/-- A goroutine that owns `o` works on structs it owns, puts back zero structs only, and ends with `Q`. -/
def Safe {α : Type} : Own → Prog α → (Except Fault α → Own → Prop) → Prop
  | o, .ret a, Q => Q (.ok a) o
  | o, .fail e, Q => Q (.error e) o
  | o, .get z k, Q => Safe o (k none) Q ∧ ∀ a, o a = none → Safe (o.upd a (some z)) (k (some a)) Q
  | o, .new z k, Q => ∀ a, o a = none → Safe (o.upd a (some z)) (k a) Q
  | o, .load a k, Q => ∃ v, o a = some v ∧ Safe o (k v) Q
  | o, .store a v k, Q => o a ≠ none ∧ Safe (o.upd a (some v)) k Q
  | o, .put z a k, Q => o a = some z ∧ Safe (o.upd a none) k Q

theorem safe_bind {α β : Type} {Q : Except Fault α → Own → Prop} {R : Except Fault β → Own → Prop} {f : α → Prog β}
    (hok : ∀ a o, Q (.ok a) o → Safe o (f a) R) (her : ∀ e o, Q (.error e) o → R (.error e) o) :
    ∀ {p : Prog α} {o : Own}, Safe o p Q → Safe o (p.bind f) R
  | .ret _, _, h => hok _ _ h
  | .fail _, _, h => her _ _ h
  | .get _ _, _, h => ⟨safe_bind hok her h.1, fun a ha => safe_bind hok her (h.2 a ha)⟩
  | .new _ _, _, h => fun a ha => safe_bind hok her (h a ha)
  | .load _ _, _, ⟨v, h1, h2⟩ => ⟨v, h1, safe_bind hok her h2⟩
  | .store _ _ _, _, h => ⟨h.1, safe_bind hok her h.2⟩
  | .put _ _ _, _, h => ⟨h.1, safe_bind hok her h.2⟩

theorem safe_mono {α : Type} {Q R : Except Fault α → Own → Prop} (hq : ∀ r o, Q r o → R r o) :
    ∀ {p : Prog α} {o : Own}, Safe o p Q → Safe o p R
  | .ret _, _, h => hq _ _ h
  | .fail _, _, h => hq _ _ h
  | .get _ _, _, h => ⟨safe_mono hq h.1, fun a ha => safe_mono hq (h.2 a ha)⟩
  | .new _ _, _, h => fun a ha => safe_mono hq (h a ha)
  | .load _ _, _, ⟨v, h1, h2⟩ => ⟨v, h1, safe_mono hq h2⟩
  | .store _ _ _, _, h => ⟨h.1, safe_mono hq h.2⟩
  | .put _ _ _, _, h => ⟨h.1, safe_mono hq h.2⟩

/-- Whatever a goroutine owns, `p` computes `x` and leaves what is owned alone. -/
def Does {α : Type} (p : Prog α) (x : Except Fault α) : Prop :=
  ∀ o : Own, Safe o p fun r o' => r = x ∧ o.le o'

theorem does_ret {α : Type} (a : α) : Does (.ret a) (.ok a) := fun o => ⟨rfl, o.le_refl⟩
theorem does_fail {α : Type} (e : Fault) : Does (α := α) (.fail e) (.error e) := fun o => ⟨rfl, o.le_refl⟩
theorem does_lift {α : Type} (x : Except Fault α) : Does (.lift x) x := by
  cases x with
  | ok a => exact does_ret a
  | error e => exact does_fail e

theorem does_bind {α β : Type} {p : Prog α} {x : Except Fault α} {f : α → Prog β} {g : α → Except Fault β}
    (h : Does p x) (hf : ∀ a, x = .ok a → Does (f a) (g a)) : Does (p.bind f) (x.bind g) := by
  intro o
  refine safe_bind ?_ ?_ (h o)
  · rintro a o' ⟨rfl, hle⟩
    exact safe_mono (fun r o'' h' => ⟨h'.1, Own.le_trans hle h'.2⟩) (hf a rfl o')
  · rintro e o' ⟨rfl, hle⟩
    exact ⟨rfl, hle⟩

/-- The fields agree. -/
def IdxDoes (ip : Nat → Option PoolField) (i : Nat → Option DField) : Prop :=
  ∀ n, (ip n = none ∧ i n = none) ∨ ∃ fp f, ip n = some fp ∧ i n = some f ∧ fp.wt = f.wt ∧ fp.offset = f.offset ∧
    ∀ b v, Does (fp.dec b v) (f.dec b v)

theorem structLoop_does {ip : Nat → Option PoolField} {i : Nat → Option DField} (h : IdxDoes ip i) (b : Bytes) :
    ∀ fuel offset vs, Does (structLoopP ip b fuel offset vs) (structLoop i b fuel offset vs) := by
  intro fuel
  induction fuel with
  | zero =>
    intro offset vs
    unfold structLoopP structLoop
    split
    · exact does_fail _
    · exact does_ret _
  | succ fuel ih =>
    intro offset vs
    unfold structLoopP structLoop
    split
    · refine does_bind (does_lift _) fun rest _ => ?_
      rcases decodeTag rest with ⟨num, wt, n, _ | e⟩
      · simp only
        rcases h num with ⟨h1, h2⟩ | ⟨fp, f, h1, h2, hw, ho, hd⟩
        · simp only [h1, h2]
          refine does_bind (does_lift _) fun r _ => ?_
          rcases r with ⟨o', _ | e⟩
          · exact ih _ _
          · exact does_ret _
        · simp only [h1, h2, hw, ho]
          split
          · exact does_ret _
          · refine does_bind (does_lift _) fun r _ => ?_
            cases r with
            | error e => exact does_ret _
            | ok data =>
              refine does_bind (does_lift _) fun v _ => ?_
              refine does_bind (hd _ _) fun r _ => ?_
              cases r with
              | ok v n => exact ih _ _
              | err v e => exact does_ret _
      · exact does_ret _
    · exact does_ret _

/-- One field agrees. -/
def FieldDoes (fp : PoolField) (f : DField) : Prop :=
  fp.num = f.num ∧ fp.wt = f.wt ∧ fp.offset = f.offset ∧ ∀ b v, Does (fp.dec b v) (f.dec b v)

theorem fieldIndexP_eq (fs : List PoolField) :
    fieldIndexP fs = fun n => fs.reverse.find? fun f => decide (n = f.num) := by
  unfold fieldIndexP
  rw [List.foldl_eq_foldr_reverse]
  induction fs.reverse with
  | nil => rfl
  | cons f l ih =>
    funext n
    simp only [List.foldr_cons, List.find?_cons, ih]
    by_cases h : n = f.num <;> simp [h]

theorem idxDoes_of_fields {α : Type} (l : List α) (g : α → PoolField) (h : α → DField) (hd : ∀ x ∈ l, FieldDoes (g x) (h x)) :
    IdxDoes (fieldIndexP (l.map g)) (fieldIndex (l.map h)) := by
  intro n
  rw [fieldIndexP_eq, fieldIndex_eq]
  simp only [← List.map_reverse]
  have hd' : ∀ x ∈ l.reverse, FieldDoes (g x) (h x) := fun x hx => hd x (by simpa using hx)
  revert hd'
  generalize l.reverse = l'
  intro hd'
  induction l' with
  | nil => exact .inl ⟨rfl, rfl⟩
  | cons x l' ih =>
    have hx := hd' x (by simp)
    simp only [List.map_cons, List.find?_cons, hx.1]
    by_cases hn : n = (h x).num
    · simp only [hn, decide_true]
      exact .inr ⟨_, _, rfl, rfl, hx.2.1, hx.2.2.1, hx.2.2.2⟩
    · simp only [hn, decide_false]
      exact ih fun y hy => hd' y (by simp [hy])

theorem structDecode_does {α : Type} (l : List α) (g : α → PoolField) (h : α → DField) (hd : ∀ x ∈ l, FieldDoes (g x) (h x))
    (b : Bytes) (v : Val) : Does (structDecodeP (l.map g) b v) (structDecode (l.map h) b v) := by
  unfold structDecodeP structDecode
  cases v with
  | struct vs => exact structLoop_does (idxDoes_of_fields l g h hd) b _ _ _
  | _ => exact does_fail _

theorem codecDecode_does {zeros : TypeId → Val} {recP : TypeId → Bytes → Val → Prog DRes}
    {rec : TypeId → Bytes → Val → Except Fault DRes} (hrec : ∀ t b v, Does (recP t b v) (rec t b v)) :
    ∀ (c : Codec) (b : Bytes) (v : Val), Does (codecDecodeP zeros recP c b v) (codecDecode zeros rec c b v) := by
  intro c
  induction c with
  | normal s => exact fun b v => does_lift _
  | required s => exact fun b v => does_lift _
  | option s => exact fun b v => does_lift _
  | bytes => exact fun b v => does_lift _
  | ptr zero c ih =>
    intro b v
    unfold codecDecodeP codecDecode
    cases v with
    | nilp => exact does_bind (ih _ _) fun _ _ => does_ret _
    | ptr v => exact does_bind (ih _ _) fun _ _ => does_ret _
    | _ => exact does_fail _
  | msg t =>
    intro b v
    unfold codecDecodeP codecDecode
    have key : ∀ v, Does
        (match decodeVarint b with
          | (_, n, err) =>
            match err with
            | some e => Prog.ret (DRes.err (.ptr v) e)
            | none =>
              (Prog.lift (goFrom b n)).bind fun rest =>
              (recP t rest v).bind fun
              | .ok v l => .ret (.ok (.ptr v) (n + l))
              | .err v e => .ret (.err (.ptr v) e))
        (match decodeVarint b with
          | (_, n, err) =>
            match err with
            | some e => pure (DRes.err (.ptr v) e)
            | none => do
              match ← rec t (← goFrom b n) v with
              | .ok v l => return .ok (.ptr v) (n + l)
              | .err v e => return .err (.ptr v) e) := by
      intro v
      rcases decodeVarint b with ⟨_, n, _ | e⟩
      · refine does_bind (does_lift _) fun rest _ => ?_
        refine does_bind (hrec _ _ _) fun r _ => ?_
        cases r with
        | ok v n => exact does_ret _
        | err v e => exact does_ret _
      · exact does_ret _
    cases v with
    | nilp => exact key _
    | ptr v => exact key _
    | _ => exact does_fail _
  | slice zero c ih =>
    intro b v
    unfold codecDecodeP codecDecode
    cases v with
    | slice n es sp =>
      simp only
      cases growIfFull zero es sp with
      | nil => exact does_fail _
      | cons slot sp' =>
        refine does_bind (ih _ _) fun r _ => ?_
        cases r with
        | ok v n => exact does_ret _
        | err v e => exact does_ret _
    | _ => exact does_fail _
  | map i kc vc kd vd _ _ ihk ihv =>
    intro b v
    unfold codecDecodeP codecDecode
    cases v with
    | map n m =>
      simp only
      split
      · exact does_ret _
      · -- the body, with the scratch struct
        generalize hz : Val.struct [i.kzero, i.vzero] = z
        have body : ∀ (o : Own) (s : Nat), o s = none → Safe (o.upd s (some z))
            (match decodeVarint b with
              | (_, nl, err) =>
                match err with
                | some e => Prog.ret (DRes.err (.map false m) e)
                | none =>
                  let entry : List PoolField :=
                    [{ num := wtNumber i.eKey, wt := wtType i.eKey, offset := 0, dec := codecDecodeP zeros recP kd },
                     { num := wtNumber i.eVal, wt := wtType i.eVal, offset := 1, dec := codecDecodeP zeros recP vd }]
                  (Prog.lift (goFrom b nl)).bind fun rest =>
                  .load s fun v =>
                  (structDecodeP entry rest v).bind fun r =>
                  .store s r.val <|
                  .load s fun v =>
                  (Prog.lift (entryAssign m nl r v)).bind fun r =>
                  .store s z <|
                  .put z s <|
                  .ret r)
            (fun r o' => r = (codecDecode zeros rec (.map i kc vc kd vd) b (.map n m)) ∧ o.le o') := by
          intro o s hs
          unfold codecDecode
          simp only [*, if_false]
          rcases decodeVarint b with ⟨_, nl, _ | e⟩
          · simp only
            cases hgo : goFrom b nl with
            | error e => exact ⟨rfl, Own.le_upd o.le_refl hs⟩
            | ok rest =>
              refine ⟨z, Own.upd_same _ _ _, ?_⟩
              have hd := structDecode_does
                [((({ num := wtNumber i.eKey, wt := wtType i.eKey, offset := 0, dec := codecDecodeP zeros recP kd } : PoolField)),
                  ({ num := wtNumber i.eKey, wt := wtType i.eKey, offset := 0, dec := codecDecode zeros rec kd } : DField)),
                 ((({ num := wtNumber i.eVal, wt := wtType i.eVal, offset := 1, dec := codecDecodeP zeros recP vd } : PoolField)),
                  ({ num := wtNumber i.eVal, wt := wtType i.eVal, offset := 1, dec := codecDecode zeros rec vd } : DField))]
                Prod.fst Prod.snd (by
                  intro x hx
                  simp only [List.mem_cons, List.not_mem_nil, or_false] at hx
                  rcases hx with rfl | rfl
                  · exact ⟨rfl, rfl, rfl, ihk⟩
                  · exact ⟨rfl, rfl, rfl, ihv⟩) rest z (o.upd s (some z))
              simp only [List.map_cons, List.map_nil] at hd
              refine safe_bind ?_ ?_ hd
              · rintro r o' ⟨hr, hle⟩
                have hs' : o' s = some z := hle s z (Own.upd_same _ _ _)
                have hle' : o.le o' := Own.le_trans (Own.le_upd o.le_refl hs) hle
                refine ⟨by rw [hs']; simp, r.val, Own.upd_same _ _ _, ?_⟩
                simp only [bind, Except.bind, ← hr]
                have fin : ∀ x : Except Fault DRes, x = entryAssign m nl r r.val → Safe (o'.upd s (some r.val))
                    ((Prog.lift (entryAssign m nl r r.val)).bind fun r => .store s z <| .put z s <| .ret r)
                    (fun r o' => r = x ∧ o.le o') := by
                  rintro x rfl
                  cases entryAssign m nl r r.val with
                  | error e => exact ⟨rfl, Own.le_upd hle' hs⟩
                  | ok r =>
                    refine ⟨by rw [Own.upd_same]; simp, Own.upd_same _ _ _, rfl, ?_⟩
                    exact Own.le_upd (Own.le_upd (Own.le_upd hle' hs) hs) hs
                apply fin
                cases r with
                | err v e => rfl
                | ok v k =>
                  cases v with
                  | struct vs =>
                    match vs with
                    | [] => rfl
                    | [_] => rfl
                    | [k, v] =>
                      simp only [entryAssign, DRes.val]
                      cases k.toKey? with
                      | none => rfl
                      | some k => rfl
                    | _ :: _ :: _ :: _ => rfl
                  | _ => rfl
              · rintro e o' ⟨hr, hle⟩
                refine ⟨?_, Own.le_trans (Own.le_upd o.le_refl hs) hle⟩
                simp only [bind, Except.bind, ← hr]
          · exact ⟨rfl, Own.le_upd o.le_refl hs⟩
        intro o
        have e : codecDecode zeros rec (.map i kc vc kd vd) b (.map n m) = codecDecode zeros rec (.map i kc vc kd vd) b (.map n m) := rfl
        conv at e => lhs; unfold codecDecode
        simp only [*, if_false] at e
        refine ⟨fun a ha => ?_, fun a ha => ?_⟩
        · have := body o a ha
          rw [← e] at this
          exact this
        · have := body o a ha
          rw [← e] at this
          exact this
    | _ => exact does_fail _

theorem decodeMsg_does (env : Env) : ∀ (d : Nat) (t : TypeId) (b : Bytes) (v : Val),
    Does (decodeMsgP env d t b v) (decodeMsg env d t b v) := by
  intro d
  induction d with
  | zero => exact fun t b v => does_fail _
  | succ d ih =>
    intro t b v
    exact structDecode_does _ _ _ (fun f _ => ⟨rfl, rfl, rfl, codecDecode_does ih f.codec⟩) b v

theorem unmarshal_does (env : Env) (b : Bytes) (a : Arg) : Does (unmarshalP env b a) (unmarshal env b a) := by
  unfold unmarshalP unmarshal
  split
  · exact does_ret _
  · cases a with
    | nilIface => exact does_fail _
    | msg t v =>
      refine does_bind (decodeMsg_does env _ t b v) fun r _ => ?_
      cases r with
      | err v e => exact does_ret _
      | ok v n =>
        simp only
        split <;> exact does_ret _
    | _ => exact does_ret _

/-! ### the process -/

/-- What holds in every reachable state: `own i` is what goroutine `i` owns. -/
structure PoolInv (env : Env) (s : Sys) (own : Nat → Own) : Prop where
  mem : ∀ i a v, own i a = some v → s.mem a = some v
  disj : ∀ i j a, own i a ≠ none → own j a ≠ none → i = j
  pool : ∀ z a, (z, a) ∈ s.pool → s.mem a = some z ∧ ∀ i, own i a = none
  nodup : (s.pool.map Prod.snd).Nodup
  calls : ∀ i c, s.calls[i]? = some c → Safe (own i) c.prog fun r _ => r = unmarshal env c.input c.arg
  fin : ∃ N, ∀ a, N ≤ a → s.mem a = none

/-- Goroutine `i` owns `o` now. -/
def setOwn (own : Nat → Own) (i : Nat) (o : Own) : Nat → Own := fun j => if j = i then o else own j

theorem setOwn_same (own : Nat → Own) (i : Nat) (o : Own) : setOwn own i o i = o := by simp [setOwn]
theorem setOwn_other (own : Nat → Own) {i j : Nat} (o : Own) (h : j ≠ i) : setOwn own i o j = own j := by simp [setOwn, h]

theorem calls_next {env : Env} {s : Sys} {own : Nat → Own} (h : PoolInv env s own) {i : Nat} {c : Call} {p : Prog UnmarshalRes}
    {o : Own} (hc : s.calls[i]? = some c) (hp : Safe o p fun r _ => r = unmarshal env c.input c.arg) :
    ∀ j d, (s.calls.set i { c with prog := p })[j]? = some d →
      Safe (setOwn own i o j) d.prog fun r _ => r = unmarshal env d.input d.arg := by
  intro j d hd
  by_cases hj : j = i
  · subst hj
    have hl : j < s.calls.length := (List.getElem?_eq_some_iff.mp hc).1
    rw [List.getElem?_set_self hl] at hd
    cases hd
    rw [setOwn_same]; exact hp
  · rw [List.getElem?_set_ne (Ne.symm hj)] at hd
    rw [setOwn_other _ _ hj]
    exact h.calls j d hd

/-- Goroutine `i` gets a struct nobody owns and that is not in the pool any more. -/
theorem inv_gain {env : Env} {s : Sys} {own : Nat → Own} (h : PoolInv env s own) {i : Nat} {c : Call} {p : Prog UnmarshalRes}
    {a : Nat} {z : Val} {mem : Nat → Option Val} {pool : List (Val × Nat)} (hc : s.calls[i]? = some c)
    (ha : ∀ j, own j a = none) (hp : Safe ((own i).upd a (some z)) p fun r _ => r = unmarshal env c.input c.arg)
    (hm : mem a = some z) (hm' : ∀ x, x ≠ a → mem x = s.mem x) (hs : pool.Sublist s.pool) (hna : ∀ w, (w, a) ∉ pool) :
    PoolInv env { mem := mem, pool := pool, calls := s.calls.set i { c with prog := p } }
      (setOwn own i ((own i).upd a (some z))) := by
  refine ⟨?_, ?_, ?_, ?_, calls_next h hc hp, ?_⟩
  · intro j x v hv
    by_cases hj : j = i
    · subst hj
      rw [setOwn_same] at hv
      by_cases hx : x = a
      · subst hx; rw [Own.upd_same] at hv; cases hv; exact hm
      · rw [Own.upd_other _ _ hx] at hv
        exact (hm' x hx).trans (h.mem _ _ _ hv)
    · rw [setOwn_other _ _ hj] at hv
      have hx : x ≠ a := by rintro rfl; rw [ha j] at hv; cases hv
      exact (hm' x hx).trans (h.mem _ _ _ hv)
  · intro j k x hj hk
    by_cases hx : x = a
    · subst hx
      have : ∀ l, setOwn own i ((own i).upd x (some z)) l x ≠ none → l = i := by
        intro l hl
        by_cases hli : l = i
        · exact hli
        · rw [setOwn_other _ _ hli, ha l] at hl; exact absurd rfl hl
      rw [this j hj, this k hk]
    · have : ∀ l, setOwn own i ((own i).upd a (some z)) l x = own l x := by
        intro l
        by_cases hli : l = i
        · subst hli; rw [setOwn_same, Own.upd_other _ _ hx]
        · rw [setOwn_other _ _ hli]
      rw [this] at hj hk
      exact h.disj j k x hj hk
  · intro w x hx
    have hxa : x ≠ a := by rintro rfl; exact hna w hx
    obtain ⟨h1, h2⟩ := h.pool w x (hs.subset hx)
    refine ⟨(hm' x hxa).trans h1, fun j => ?_⟩
    by_cases hj : j = i
    · subst hj; rw [setOwn_same, Own.upd_other _ _ hxa]; exact h2 j
    · rw [setOwn_other _ _ hj]; exact h2 j
  · exact (hs.map Prod.snd).nodup h.nodup
  · obtain ⟨N, hN⟩ := h.fin
    refine ⟨max N (a + 1), fun x hx => ?_⟩
    exact (hm' x (by omega)).trans (hN x (by omega))

theorem inv_step {env : Env} {s s' : Sys} {own : Nat → Own} (h : PoolInv env s own) (hs : SysStep env s s') :
    ∃ own', PoolInv env s' own' := by
  cases hs with
  | call b a =>
    refine ⟨own, h.mem, h.disj, h.pool, h.nodup, fun i c hc => ?_, h.fin⟩
    rcases Nat.lt_or_ge i s.calls.length with hi | hi
    · rw [List.getElem?_append_left hi] at hc
      exact h.calls i c hc
    · rw [List.getElem?_append_right hi] at hc
      cases hk : i - s.calls.length with
      | zero =>
        rw [hk] at hc
        simp only [List.getElem?_cons_zero, Option.some.injEq] at hc
        subst hc
        exact safe_mono (fun r o h => h.1) (unmarshal_does env b a (own i))
      | succ k => rw [hk] at hc; simp at hc
  | gc xs e ys he =>
    have hsub : (xs ++ ys).Sublist s.pool := by
      rw [he]; exact List.Sublist.append (List.Sublist.refl _) (List.sublist_cons_self _ _)
    exact ⟨own, h.mem, h.disj, fun z a hz => h.pool z a (hsub.subset hz), (hsub.map _).nodup h.nodup, h.calls, h.fin⟩
  | getNone i c z k hc hp =>
    have hsafe := h.calls i c hc
    rw [hp] at hsafe
    have := calls_next h hc hsafe.1
    have e : setOwn own i (own i) = own := by
      funext j; by_cases hj : j = i
      · subst hj; rw [setOwn_same]
      · rw [setOwn_other _ _ hj]
    rw [e] at this
    exact ⟨own, h.mem, h.disj, h.pool, h.nodup, this, h.fin⟩
  | getSome i c z k xs a ys hc hp he =>
    have hsafe := h.calls i c hc
    rw [hp] at hsafe
    obtain ⟨hm, hno⟩ := h.pool z a (by rw [he]; simp)
    have hsub : (xs ++ ys).Sublist s.pool := by
      rw [he]; exact List.Sublist.append (List.Sublist.refl _) (List.sublist_cons_self _ _)
    refine ⟨_, inv_gain h hc hno (hsafe.2 a (hno i)) hm (fun _ _ => rfl) hsub fun w hw => ?_⟩
    have hn := h.nodup
    rw [he, List.map_append, List.map_cons, List.nodup_append, List.nodup_cons] at hn
    rcases List.mem_append.mp hw with hw | hw
    · exact hn.2.2 a (List.mem_map.mpr ⟨_, hw, rfl⟩) a (by simp) rfl
    · exact hn.2.1.1 (List.mem_map.mpr ⟨_, hw, rfl⟩)
  | new i c z k a hc hp ha =>
    have hsafe := h.calls i c hc
    rw [hp] at hsafe
    have hno : ∀ j, own j a = none := by
      intro j
      cases ho : own j a with
      | none => rfl
      | some v => have := h.mem j a v ho; rw [ha] at this; cases this
    refine ⟨_, inv_gain h hc hno (hsafe a (hno i)) (by simp) (fun x hx => by simp [hx]) (List.Sublist.refl _) fun w hw => ?_⟩
    have := (h.pool w a hw).1
    rw [ha] at this; cases this
  | load i c a k v hc hp hm =>
    have hsafe := h.calls i c hc
    rw [hp] at hsafe
    obtain ⟨v', hv, hsafe⟩ := hsafe
    have := h.mem i a v' hv
    rw [hm] at this; cases this
    have := calls_next h hc hsafe
    have e : setOwn own i (own i) = own := by
      funext j; by_cases hj : j = i
      · subst hj; rw [setOwn_same]
      · rw [setOwn_other _ _ hj]
    rw [e] at this
    exact ⟨own, h.mem, h.disj, h.pool, h.nodup, this, h.fin⟩
  | store i c a v k hc hp =>
    have hsafe := h.calls i c hc
    rw [hp] at hsafe
    obtain ⟨ha, hsafe⟩ := hsafe
    refine ⟨_, ?_, ?_, ?_, h.nodup, calls_next h hc hsafe, ?_⟩
    · intro j x w hw
      simp only
      by_cases hj : j = i
      · subst hj
        rw [setOwn_same] at hw
        by_cases hx : x = a
        · subst hx; rw [Own.upd_same] at hw; simpa using hw
        · rw [Own.upd_other _ _ hx] at hw
          rw [if_neg hx]; exact h.mem _ _ _ hw
      · rw [setOwn_other _ _ hj] at hw
        have hx : x ≠ a := by
          rintro rfl
          exact hj (h.disj j i x (by rw [hw]; simp) ha)
        rw [if_neg hx]; exact h.mem _ _ _ hw
    · have same : ∀ l x, setOwn own i ((own i).upd a (some v)) l x ≠ none → own l x ≠ none := by
        intro l x hl
        by_cases hli : l = i
        · subst hli
          rw [setOwn_same] at hl
          by_cases hx : x = a
          · subst hx; exact ha
          · rwa [Own.upd_other _ _ hx] at hl
        · rwa [setOwn_other _ _ hli] at hl
      intro j k x hj hk
      exact h.disj j k x (same _ _ hj) (same _ _ hk)
    · intro w x hx
      obtain ⟨h1, h2⟩ := h.pool w x hx
      have hxa : x ≠ a := by rintro rfl; exact ha (h2 i)
      refine ⟨by simp only; rw [if_neg hxa]; exact h1, fun j => ?_⟩
      by_cases hj : j = i
      · subst hj; rw [setOwn_same, Own.upd_other _ _ hxa]; exact h2 j
      · rw [setOwn_other _ _ hj]; exact h2 j
    · obtain ⟨N, hN⟩ := h.fin
      refine ⟨max N (a + 1), fun x hx => ?_⟩
      simp only
      rw [if_neg (by omega)]
      exact hN x (by omega)
  | put i c z a k hc hp =>
    have hsafe := h.calls i c hc
    rw [hp] at hsafe
    obtain ⟨ha, hsafe⟩ := hsafe
    have same : ∀ l x v, setOwn own i ((own i).upd a none) l x = some v → own l x = some v ∧ (x = a → l ≠ i) := by
      intro l x v hl
      by_cases hli : l = i
      · subst hli
        rw [setOwn_same] at hl
        by_cases hx : x = a
        · subst hx; rw [Own.upd_same] at hl; cases hl
        · rw [Own.upd_other _ _ hx] at hl
          exact ⟨hl, fun e => absurd e hx⟩
      · rw [setOwn_other _ _ hli] at hl
        exact ⟨hl, fun _ => hli⟩
    have same' : ∀ l x, setOwn own i ((own i).upd a none) l x ≠ none → own l x ≠ none := by
      intro l x hl
      obtain ⟨v, hv⟩ := Option.ne_none_iff_exists'.mp hl
      rw [(same l x v hv).1]; simp
    refine ⟨_, ?_, ?_, ?_, ?_, calls_next h hc hsafe, h.fin⟩
    · intro j x v hv
      exact h.mem j x v (same j x v hv).1
    · intro j k x hj hk
      exact h.disj j k x (same' _ _ hj) (same' _ _ hk)
    · intro w x hx
      rcases List.mem_cons.mp hx with e | hx
      · cases e
        refine ⟨h.mem i a z ha, fun j => ?_⟩
        cases hv : setOwn own i ((own i).upd a none) j a with
        | none => rfl
        | some v =>
          obtain ⟨h1, h2⟩ := same j a v hv
          exact absurd (h.disj j i a (by rw [h1]; simp) (by rw [ha]; simp)) (h2 rfl)
      · obtain ⟨h1, h2⟩ := h.pool w x hx
        refine ⟨h1, fun j => ?_⟩
        cases hv : setOwn own i ((own i).upd a none) j x with
        | none => rfl
        | some v => have := (same j x v hv).1; rw [h2 j] at this; cases this
    · simp only [List.map_cons, List.nodup_cons]
      refine ⟨fun hm => ?_, h.nodup⟩
      obtain ⟨⟨w, x⟩, hx, rfl⟩ := List.mem_map.mp hm
      have := (h.pool w x hx).2 i
      rw [ha] at this; cases this

theorem inv_reachable {env : Env} {s : Sys} (h : SysReachable env s) : ∃ own, PoolInv env s own := by
  induction h with
  | start =>
    exact ⟨fun _ _ => none, (fun _ _ _ h => nomatch h), (fun _ _ _ h => absurd rfl h), (fun _ _ h => nomatch h), .nil,
      (fun _ _ h => by simp [Sys.start] at h), ⟨0, fun _ _ => rfl⟩⟩
  | step s s' _ hs ih =>
    obtain ⟨own, h⟩ := ih
    exact inv_step h hs

/-- Some number of steps. -/
inductive SysSteps (env : Env) : Sys → Sys → Prop
  | refl (s) : SysSteps env s s
  | step (s s' s'') : SysStep env s s' → SysSteps env s' s'' → SysSteps env s s''

end Pb
