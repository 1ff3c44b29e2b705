import Verif.Spec.Merge
/-
What Unmarshal makes of an input, bools included. As `Spec/Merge`, but the library takes one byte for a bool whatever the
length of the payload is (normal_codec.go:34-40) and goes on right after this byte, so the division of the input into records
depends on which numbers belong to bools.
-/
namespace Pb.Spec

/-- `Cuts isb b rs`: the input is divided into the records `rs`, where a bool has a payload of one byte. There must be a complete
payload nevertheless; what is left of it is taken for the next record. -/
inductive Cuts (isb : Nat → Prop) : Bytes → List (Nat × Nat × Bytes) → Prop
  | nil : Cuts isb [] []
  | whole (u b num wt data rs) : ¬ isb num → Record u num wt data → Cuts isb b rs → Cuts isb (u ++ b) ((num, wt, data) :: rs)
  | bool (p b num wt x q rs) : isb num → TagBytes p num wt → Payload wt (x :: q) → Cuts isb (q ++ b) rs →
      Cuts isb (p ++ ((x :: q) ++ b)) ((num, wt, [x]) :: rs)

/-- The number belongs to a bool field. -/
def BoolNumber (fields : List Field) (num : Nat) : Prop := ∃ f, Declared fields num f ∧ f.codec.isBool

/-- The number belongs to a bool key or value of a map entry. -/
def BoolPart (i : MapInfo) (kd vd : Codec) (num : Nat) : Prop :=
  (num = keyNumber i.eVal ∧ vd.isBool) ∨ (num ≠ keyNumber i.eVal ∧ num = keyNumber i.eKey ∧ kd.isBool)

mutual
/-- `Reading env c old data new`: one record with payload `data` turns the contents `old` of a field into `new`. -/
inductive Reading (env : Env) : Codec → Val → Bytes → Val → Prop
  | normal (s old data new) : s ≠ .bool → ReadsAs s data new → Reading env (.normal s) old data new
  | required (s old data new) : s ≠ .bool → ReadsAs s data new → Reading env (.required s) old data new
  | option (s b old data new) : s ≠ .bool → ReadsAs s data new → Reading env (.option s) (.opt b old) data (.opt true new)
  /-- a bool is true if its byte is not zero -/
  | normalBool (old x) : Reading env (.normal .bool) old [x] (.b8 (x ≠ 0#8))
  | requiredBool (old x) : Reading env (.required .bool) old [x] (.b8 (x ≠ 0#8))
  | optionBool (b old x) : Reading env (.option .bool) (.opt b old) [x] (.opt true (.b8 (x ≠ 0#8)))
  | bytes (old data s) : BytesAs data s → Reading env .bytes (.bytes old) data (.bytes (some s))
  | ptrNew (z c data new) : Reading env c z data new → Reading env (.ptr z c) .nilp data (.ptr new)
  | ptrOld (z c old data new) : Reading env c old data new → Reading env (.ptr z c) (.ptr old) data (.ptr new)
  | msgNew (t data body rs vs vs') : (env t).zero = .struct vs → BytesAs data body → Cuts (BoolNumber (env t).fields) body rs →
      ReadingRecs env t vs rs vs' → Reading env (.msg t) .nilp data (.ptr (.struct vs'))
  | msgOld (t data body rs vs vs') : BytesAs data body → Cuts (BoolNumber (env t).fields) body rs →
      ReadingRecs env t vs rs vs' → Reading env (.msg t) (.ptr (.struct vs)) data (.ptr (.struct vs'))
  | sliceGrow (z c n es data new) : Reading env c z data new → Reading env (.slice z c) (.slice n es []) data
      (.slice false (es ++ [new]) (List.replicate ((if es = [] then 10 else es.length) - 1) z))
  | sliceSlot (z c n es slot sp data new) : Reading env c slot data new →
      Reading env (.slice z c) (.slice n es (slot :: sp)) data (.slice n (es ++ [new]) sp)
  | map (i kc vc kd vd n m data body rs k v m') : BytesAs data body → Cuts (BoolPart i kd vd) body rs →
      ReadingEntry env i kd vd i.kzero i.vzero rs (Key.toVal k) v → Assign m k v m' →
      Reading env (.map i kc vc kd vd) (.map n m) data (.map false m')

/-- `ReadingRecs env t vs rs vs'`: the records `rs`, one after the other, turn the slots `vs` into `vs'`. -/
inductive ReadingRecs (env : Env) : TypeId → List Val → List (Nat × Nat × Bytes) → List Val → Prop
  | nil (t vs) : ReadingRecs env t vs [] vs
  | unknown (t vs num wt data rs vs') : Undeclared (env t).fields num → ReadingRecs env t vs rs vs' →
      ReadingRecs env t vs ((num, wt, data) :: rs) vs'
  | known (t vs num data rs vs' f old new) : Declared (env t).fields num f → vs[f.offset]? = some old →
      Reading env f.codec old data new → ReadingRecs env t (vs.set f.offset new) rs vs' →
      ReadingRecs env t vs ((num, keyType f.tag.wiretag, data) :: rs) vs'

/-- `ReadingEntry env i kd vd k v rs k' v'`: the records `rs` of a map entry turn key `k` and value `v` into `k'`, `v'`. -/
inductive ReadingEntry (env : Env) : MapInfo → Codec → Codec → Val → Val → List (Nat × Nat × Bytes) → Val → Val → Prop
  | nil (i kd vd k v) : ReadingEntry env i kd vd k v [] k v
  | unknown (i kd vd k v num wt data rs k' v') : num ≠ keyNumber i.eKey → num ≠ keyNumber i.eVal →
      ReadingEntry env i kd vd k v rs k' v' → ReadingEntry env i kd vd k v ((num, wt, data) :: rs) k' v'
  | key (i kd vd k v data rs k₁ k' v') : keyNumber i.eKey ≠ keyNumber i.eVal → Reading env kd k data k₁ →
      ReadingEntry env i kd vd k₁ v rs k' v' →
      ReadingEntry env i kd vd k v ((keyNumber i.eKey, keyType i.eKey, data) :: rs) k' v'
  | val (i kd vd k v data rs v₁ k' v') : Reading env vd v data v₁ → ReadingEntry env i kd vd k v₁ rs k' v' →
      ReadingEntry env i kd vd k v ((keyNumber i.eVal, keyType i.eVal, data) :: rs) k' v'
end

end Pb.Spec
