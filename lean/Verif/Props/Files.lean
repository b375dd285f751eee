import Verif.Model.Files
import Mathlib.Tactic
/-!
# C93: what is saved can be read back, and what is lost when it cannot be saved
-/
namespace Verif.Props
open Verif Verif.Files

/-- The data that a Python object stands for: numbers of all kinds are numbers, sequences of all kinds are lists. -/
def means : PyVal → MVal ℝ
  | .none => .none
  | .bool b => .num (if b then 1 else 0)
  | .int n => .num n
  | .float x => .num x
  | .str s => .str s
  | .npInt64 n => .num n
  | .npFloat64 x => .num x
  | .npOther x => .num x
  | .list l => .list (l.attach.map fun x => means x.1)
  | .tuple l => .list (l.attach.map fun x => means x.1)
  | .array l => .list (l.attach.map fun x => means x.1)
  | .dict d => .dict (d.attach.map fun kv => (kv.1.1, means kv.1.2))
termination_by v => sizeOf v
decreasing_by
  all_goals simp_wf
  · have := List.sizeOf_lt_of_mem x.2; omega
  · have := List.sizeOf_lt_of_mem x.2; omega
  · have := List.sizeOf_lt_of_mem x.2; omega
  · have := List.sizeOf_lt_of_mem kv.2; obtain ⟨⟨a, b⟩, hk⟩ := kv; simp at *; omega

/-- `y` is somewhere inside of `v`, or `v` itself. -/
inductive Part (y : PyVal) : PyVal → Prop
  | self : Part y y
  | list {l x} : x ∈ l → Part y x → Part y (.list l)
  | tuple {l x} : x ∈ l → Part y x → Part y (.tuple l)
  | array {l x} : x ∈ l → Part y x → Part y (.array l)
  | dict {d kv} : kv ∈ d → Part y kv.2 → Part y (.dict d)

/-- Numpy scalars that are neither `np.int64` nor `np.float64`. -/
def IsOther (v : PyVal) : Prop := ∃ x, v = .npOther x
def IsInt64 (v : PyVal) : Prop := ∃ n, v = .npInt64 n
def IsFloat64 (v : PyVal) : Prop := ∃ x, v = .npFloat64 x
def IsArray (v : PyVal) : Prop := ∃ l, v = .array l
def IsTuple (v : PyVal) : Prop := ∃ l, v = .tuple l

theorem pyval_ind {P : PyVal → Prop} (h0 : P .none) (h1 : ∀ b, P (.bool b)) (h2 : ∀ n, P (.int n))
    (h3 : ∀ x, P (.float x)) (h4 : ∀ s, P (.str s)) (h5 : ∀ n, P (.npInt64 n)) (h6 : ∀ x, P (.npFloat64 x))
    (h7 : ∀ x, P (.npOther x)) (h8 : ∀ l, (∀ x ∈ l, P x) → P (.list l)) (h9 : ∀ l, (∀ x ∈ l, P x) → P (.tuple l))
    (h10 : ∀ l, (∀ x ∈ l, P x) → P (.array l)) (h11 : ∀ d : List (String × PyVal), (∀ kv ∈ d, P kv.2) → P (.dict d)) :
    ∀ v, P v
  | .none => h0
  | .bool b => h1 b
  | .int n => h2 n
  | .float x => h3 x
  | .str s => h4 s
  | .npInt64 n => h5 n
  | .npFloat64 x => h6 x
  | .npOther x => h7 x
  | .list l => h8 l fun x _ => pyval_ind h0 h1 h2 h3 h4 h5 h6 h7 h8 h9 h10 h11 x
  | .tuple l => h9 l fun x _ => pyval_ind h0 h1 h2 h3 h4 h5 h6 h7 h8 h9 h10 h11 x
  | .array l => h10 l fun x _ => pyval_ind h0 h1 h2 h3 h4 h5 h6 h7 h8 h9 h10 h11 x
  | .dict d => h11 d fun kv _ => pyval_ind h0 h1 h2 h3 h4 h5 h6 h7 h8 h9 h10 h11 kv.2
termination_by v => sizeOf v
decreasing_by
  all_goals simp_wf
  · rename_i hm; have := List.sizeOf_lt_of_mem hm; omega
  · rename_i hm; have := List.sizeOf_lt_of_mem hm; omega
  · rename_i hm; have := List.sizeOf_lt_of_mem hm; omega
  · rename_i hm; have := List.sizeOf_lt_of_mem hm; obtain ⟨a, b⟩ := kv; simp at *; omega

theorem part_list (y : PyVal) (l) : Part y (.list l) ↔ y = .list l ∨ ∃ x ∈ l, Part y x :=
  ⟨fun h => by cases h with | self => exact .inl rfl | list a b => exact .inr ⟨_, a, b⟩,
   fun h => by rcases h with rfl | ⟨x, a, b⟩; exacts [.self, .list a b]⟩
theorem part_tuple (y : PyVal) (l) : Part y (.tuple l) ↔ y = .tuple l ∨ ∃ x ∈ l, Part y x :=
  ⟨fun h => by cases h with | self => exact .inl rfl | tuple a b => exact .inr ⟨_, a, b⟩,
   fun h => by rcases h with rfl | ⟨x, a, b⟩; exacts [.self, .tuple a b]⟩
theorem part_array (y : PyVal) (l) : Part y (.array l) ↔ y = .array l ∨ ∃ x ∈ l, Part y x :=
  ⟨fun h => by cases h with | self => exact .inl rfl | array a b => exact .inr ⟨_, a, b⟩,
   fun h => by rcases h with rfl | ⟨x, a, b⟩; exacts [.self, .array a b]⟩
theorem part_dict (y : PyVal) (d : List (String × PyVal)) : Part y (.dict d) ↔ y = .dict d ∨ ∃ kv ∈ d, Part y kv.2 :=
  ⟨fun h => by cases h with | self => exact .inl rfl | dict a b => exact .inr ⟨_, a, b⟩,
   fun h => by rcases h with rfl | ⟨x, a, b⟩; exacts [.self, .dict a b]⟩

/-- Some part of the object is of the kind. -/
def Has (B : PyVal → Prop) (v : PyVal) : Prop := ∃ y, Part y v ∧ B y

theorem has_list {B} (l) : Has B (.list l) ↔ B (.list l) ∨ ∃ x ∈ l, Has B x := by
  simp only [Has, part_list]
  constructor
  · rintro ⟨y, rfl | ⟨x, a, b⟩, c⟩
    exacts [.inl c, .inr ⟨x, a, y, b, c⟩]
  · rintro (c | ⟨x, a, y, b, c⟩)
    exacts [⟨_, .inl rfl, c⟩, ⟨y, .inr ⟨x, a, b⟩, c⟩]
theorem has_tuple {B} (l) : Has B (.tuple l) ↔ B (.tuple l) ∨ ∃ x ∈ l, Has B x := by
  simp only [Has, part_tuple]
  constructor
  · rintro ⟨y, rfl | ⟨x, a, b⟩, c⟩
    exacts [.inl c, .inr ⟨x, a, y, b, c⟩]
  · rintro (c | ⟨x, a, y, b, c⟩)
    exacts [⟨_, .inl rfl, c⟩, ⟨y, .inr ⟨x, a, b⟩, c⟩]
theorem has_array {B} (l) : Has B (.array l) ↔ B (.array l) ∨ ∃ x ∈ l, Has B x := by
  simp only [Has, part_array]
  constructor
  · rintro ⟨y, rfl | ⟨x, a, b⟩, c⟩
    exacts [.inl c, .inr ⟨x, a, y, b, c⟩]
  · rintro (c | ⟨x, a, y, b, c⟩)
    exacts [⟨_, .inl rfl, c⟩, ⟨y, .inr ⟨x, a, b⟩, c⟩]
theorem has_dict {B} (d : List (String × PyVal)) : Has B (.dict d) ↔ B (.dict d) ∨ ∃ kv ∈ d, Has B kv.2 := by
  simp only [Has, part_dict]
  constructor
  · rintro ⟨y, rfl | ⟨x, a, b⟩, c⟩
    exacts [.inl c, .inr ⟨x, a, y, b, c⟩]
  · rintro (c | ⟨x, a, y, b, c⟩)
    exacts [⟨_, .inl rfl, c⟩, ⟨y, .inr ⟨x, a, b⟩, c⟩]

theorem option_mapM_none {α β} (f : α → Option β) : ∀ l : List α, l.mapM f = none ↔ ∃ x ∈ l, f x = none
  | [] => by simp
  | a :: l => by
    rw [List.mapM_cons]
    have := option_mapM_none f l
    cases ha : f a <;> cases hl : l.mapM f <;> simp_all
theorem option_mapM_some {α β} (f : α → Option β) (g : α → β) : ∀ l : List α, (∀ x ∈ l, ∀ w, f x = some w → w = g x) →
    ∀ w, l.mapM f = some w → w = l.map g
  | [], _, w, h => by simp at h; simp [h]
  | a :: l, hg, w, h => by
    rw [List.mapM_cons] at h
    cases ha : f a <;> cases hl : l.mapM f <;> rw [ha, hl] at h <;> simp at h
    rename_i b bs
    rw [← h, option_mapM_some f g l (fun x hx => hg x (List.mem_cons_of_mem _ hx)) bs hl, hg a List.mem_cons_self b ha]
    rfl

/-- What JSON cannot write. -/
def NotJson (v : PyVal) : Prop := IsInt64 v ∨ IsOther v ∨ IsArray v
/-- What `yaml.dump` writes so that `yaml.safe_load` refuses it. -/
def NotYaml (v : PyVal) : Prop := IsInt64 v ∨ IsFloat64 v ∨ IsOther v ∨ IsArray v ∨ IsTuple v

theorem attach_map {α β} (f : α → β) (l : List α) : (l.attach.map fun x => f x.1) = l.map f := by
  have := List.map_map (l := l.attach) (f := fun x => x.1) (g := f)
  rw [List.attach_map_subtype_val] at this
  exact this.symm
theorem means_list (l) : means (.list l) = .list (l.map means) := by rw [means]; simp
theorem means_tuple (l) : means (.tuple l) = .list (l.map means) := by rw [means]; simp
theorem means_array (l) : means (.array l) = .list (l.map means) := by rw [means]; simp
theorem means_dict (d : List (String × PyVal)) : means (.dict d) = .dict (d.map fun kv => (kv.1, means kv.2)) := by
  rw [means, attach_map fun kv : String × PyVal => (kv.1, means kv.2)]
theorem unnumpy_list (l) : unnumpy (.list l) = .list (l.map unnumpy) := by rw [unnumpy]; simp
theorem unnumpy_array (l) : unnumpy (.array l) = .list (l.map unnumpy) := by rw [unnumpy]; simp
theorem unnumpy_dict (d : List (String × PyVal)) : unnumpy (.dict d) = .dict (d.map fun kv => (kv.1, unnumpy kv.2)) := by
  rw [unnumpy, attach_map fun kv : String × PyVal => (kv.1, unnumpy kv.2)]
theorem attach_mapM {α β} (f : α → Option β) (l : List α) : (l.attach.mapM fun x => f x.1) = l.mapM f := by
  have := List.mapM_map (m := Option) (l := l.attach) (f := fun x => x.1) (g := f)
  rw [List.attach_map_subtype_val] at this
  exact this.symm
theorem json_list (l) : json (.list l) = (l.mapM json).map .list := by rw [json, attach_mapM]
theorem json_tuple (l) : json (.tuple l) = (l.mapM json).map .list := by rw [json, attach_mapM]
theorem json_dict (d : List (String × PyVal)) :
    json (.dict d) = (d.mapM fun kv => (json kv.2).map fun w => (kv.1, w)).map .dict := by
  rw [json, attach_mapM fun kv : String × PyVal => (json kv.2).map fun w => (kv.1, w)]
theorem yaml_list (l) : yaml (.list l) = (l.mapM yaml).map .list := by rw [yaml, attach_mapM]
theorem yaml_dict (d : List (String × PyVal)) :
    yaml (.dict d) = (d.mapM fun kv => (yaml kv.2).map fun w => (kv.1, w)).map .dict := by
  rw [yaml, attach_mapM fun kv : String × PyVal => (yaml kv.2).map fun w => (kv.1, w)]

theorem has_leaf {B : PyVal → Prop} (v : PyVal) (hv : ∀ y, Part y v → y = v) : Has B v ↔ B v :=
  ⟨fun ⟨y, a, b⟩ => hv y a ▸ b, fun b => ⟨v, .self, b⟩⟩

/-- C93: JSON writes an object unless some part of it is an array or a numpy scalar other than `np.float64`, and what is read
back is the data the object stands for; tuples become lists. -/
theorem c93_json (v : PyVal) : (json v = none ↔ Has NotJson v) ∧ ∀ w, json v = some w → w = means v := by
  induction v using pyval_ind with
  | h0 | h1 _ | h2 _ | h3 _ | h4 _ | h5 _ | h6 _ | h7 _ =>
    rw [has_leaf _ (by intro y h; cases h; rfl)]
    simp [json, means, NotJson, IsInt64, IsOther, IsArray, eq_comm]
  | h8 l ih =>
    rw [has_list, json_list, means_list, Option.map_eq_none_iff, option_mapM_none]
    refine ⟨?_, ?_⟩
    · rw [or_iff_right (by simp [NotJson, IsInt64, IsOther, IsArray])]
      exact ⟨fun ⟨x, a, b⟩ => ⟨x, a, (ih x a).1.1 b⟩, fun ⟨x, a, b⟩ => ⟨x, a, (ih x a).1.2 b⟩⟩
    · intro w h
      obtain ⟨ws, h1, rfl⟩ := Option.map_eq_some_iff.1 h
      rw [option_mapM_some json means l (fun x hx => (ih x hx).2) ws h1]
  | h9 l ih =>
    rw [has_tuple, json_tuple, means_tuple, Option.map_eq_none_iff, option_mapM_none]
    refine ⟨?_, ?_⟩
    · rw [or_iff_right (by simp [NotJson, IsInt64, IsOther, IsArray])]
      exact ⟨fun ⟨x, a, b⟩ => ⟨x, a, (ih x a).1.1 b⟩, fun ⟨x, a, b⟩ => ⟨x, a, (ih x a).1.2 b⟩⟩
    · intro w h
      obtain ⟨ws, h1, rfl⟩ := Option.map_eq_some_iff.1 h
      rw [option_mapM_some json means l (fun x hx => (ih x hx).2) ws h1]
  | h10 l ih =>
    rw [has_array]
    simp [json, NotJson, IsInt64, IsOther, IsArray]
  | h11 d ih =>
    rw [has_dict, json_dict, means_dict, Option.map_eq_none_iff, option_mapM_none]
    refine ⟨?_, ?_⟩
    · rw [or_iff_right (by simp [NotJson, IsInt64, IsOther, IsArray])]
      simp only [Option.map_eq_none_iff]
      exact ⟨fun ⟨x, a, b⟩ => ⟨x, a, (ih x a).1.1 b⟩, fun ⟨x, a, b⟩ => ⟨x, a, (ih x a).1.2 b⟩⟩
    · intro w h
      obtain ⟨ws, h1, rfl⟩ := Option.map_eq_some_iff.1 h
      rw [option_mapM_some _ (fun kv => (kv.1, means kv.2)) d ?_ ws h1]
      intro x hx w hw
      obtain ⟨w', h2, rfl⟩ := Option.map_eq_some_iff.1 hw
      rw [(ih x hx).2 _ h2]

/-- C93: a YAML document can be read back unless some part of the object is a tuple, an array or any numpy scalar, and then
what is read is the data the object stands for. -/
theorem c93_yaml (v : PyVal) : (yaml v = none ↔ Has NotYaml v) ∧ ∀ w, yaml v = some w → w = means v := by
  induction v using pyval_ind with
  | h0 | h1 _ | h2 _ | h3 _ | h4 _ | h5 _ | h6 _ | h7 _ =>
    rw [has_leaf _ (by intro y h; cases h; rfl)]
    simp [yaml, means, NotYaml, IsInt64, IsOther, IsArray, IsFloat64, IsTuple, eq_comm]
  | h8 l ih =>
    rw [has_list, yaml_list, means_list, Option.map_eq_none_iff, option_mapM_none]
    refine ⟨?_, ?_⟩
    · rw [or_iff_right (by simp [NotYaml, IsInt64, IsOther, IsArray, IsFloat64, IsTuple])]
      exact ⟨fun ⟨x, a, b⟩ => ⟨x, a, (ih x a).1.1 b⟩, fun ⟨x, a, b⟩ => ⟨x, a, (ih x a).1.2 b⟩⟩
    · intro w h
      obtain ⟨ws, h1, rfl⟩ := Option.map_eq_some_iff.1 h
      rw [option_mapM_some yaml means l (fun x hx => (ih x hx).2) ws h1]
  | h9 l ih =>
    rw [has_tuple]
    simp [yaml, NotYaml, IsInt64, IsOther, IsArray, IsFloat64, IsTuple]
  | h10 l ih =>
    rw [has_array]
    simp [yaml, NotYaml, IsInt64, IsOther, IsArray, IsFloat64, IsTuple]
  | h11 d ih =>
    rw [has_dict, yaml_dict, means_dict, Option.map_eq_none_iff, option_mapM_none]
    refine ⟨?_, ?_⟩
    · rw [or_iff_right (by simp [NotYaml, IsInt64, IsOther, IsArray, IsFloat64, IsTuple])]
      simp only [Option.map_eq_none_iff]
      exact ⟨fun ⟨x, a, b⟩ => ⟨x, a, (ih x a).1.1 b⟩, fun ⟨x, a, b⟩ => ⟨x, a, (ih x a).1.2 b⟩⟩
    · intro w h
      obtain ⟨ws, h1, rfl⟩ := Option.map_eq_some_iff.1 h
      rw [option_mapM_some _ (fun kv => (kv.1, means kv.2)) d ?_ ws h1]
      intro x hx w hw
      obtain ⟨w', h2, rfl⟩ := Option.map_eq_some_iff.1 hw
      rw [(ih x hx).2 _ h2]

/-- C93: `unnumpy` does not change the data that an object stands for. -/
theorem c93_unnumpy_means (v : PyVal) : means (unnumpy v) = means v := by
  induction v using pyval_ind with
  | h0 | h1 _ | h2 _ | h3 _ | h4 _ | h5 _ | h6 _ | h7 _ => simp [unnumpy, means]
  | h8 l ih =>
    rw [unnumpy_list, means_list, means_list, List.map_map]
    exact congrArg _ (List.map_congr_left ih)
  | h9 l ih => simp [unnumpy]
  | h10 l ih =>
    rw [unnumpy_array, means_list, means_array, List.map_map]
    exact congrArg _ (List.map_congr_left ih)
  | h11 d ih =>
    rw [unnumpy_dict, means_dict, means_dict, List.map_map]
    exact congrArg _ (List.map_congr_left fun kv hkv => by simp [ih kv hkv])

theorem Part.trans {x y : PyVal} (h : Part x y) : ∀ {z}, Part y z → Part x z
  | _, .self => h
  | _, .list a b => .list a (h.trans b)
  | _, .tuple a b => .tuple a (h.trans b)
  | _, .array a b => .array a (h.trans b)
  | _, .dict a b => .dict a (h.trans b)

theorem has_mono {B : PyVal → Prop} {y z : PyVal} (h : Has B y) (hp : Part y z) : Has B z :=
  let ⟨x, a, b⟩ := h; ⟨x, a.trans hp, b⟩

/-- C93: an object that went through `unnumpy` is written as JSON unless it has a numpy scalar other than `np.int64` and
`np.float64`, or a tuple with something in it that JSON cannot write. -/
theorem c93_unnumpy_json (v : PyVal) :
    json (unnumpy v) = none ↔ Has IsOther v ∨ ∃ l, Part (.tuple l) v ∧ Has NotJson (.tuple l) := by
  have key : Has NotJson (unnumpy v) ↔ Has (fun y => IsOther y ∨ (IsTuple y ∧ Has NotJson y)) v := by
    induction v using pyval_ind with
    | h0 | h1 _ | h2 _ | h3 _ | h4 _ | h5 _ | h6 _ | h7 _ =>
      simp only [unnumpy]
      rw [has_leaf _ (by intro y h; cases h; rfl), has_leaf _ (by intro y h; cases h; rfl)]
      simp [NotJson, IsInt64, IsOther, IsArray, IsTuple]
    | h8 l ih =>
      rw [unnumpy_list, has_list, has_list, or_iff_right (by simp [NotJson, IsInt64, IsOther, IsArray]),
        or_iff_right (by simp [IsOther, IsTuple])]
      simp only [List.mem_map]
      exact ⟨fun ⟨_, ⟨x, a, e⟩, b⟩ => ⟨x, a, (ih x a).1 (e ▸ b)⟩, fun ⟨x, a, b⟩ => ⟨_, ⟨x, a, rfl⟩, (ih x a).2 b⟩⟩
    | h9 l ih =>
      simp only [unnumpy]
      constructor
      · exact fun h => ⟨_, .self, .inr ⟨⟨l, rfl⟩, h⟩⟩
      · rintro ⟨y, hp, h | ⟨-, h⟩⟩
        · exact ⟨y, hp, .inr (.inl h)⟩
        · exact has_mono h hp
    | h10 l ih =>
      rw [unnumpy_array, has_list, has_array, or_iff_right (by simp [NotJson, IsInt64, IsOther, IsArray]),
        or_iff_right (by simp [IsOther, IsTuple])]
      simp only [List.mem_map]
      exact ⟨fun ⟨_, ⟨x, a, e⟩, b⟩ => ⟨x, a, (ih x a).1 (e ▸ b)⟩, fun ⟨x, a, b⟩ => ⟨_, ⟨x, a, rfl⟩, (ih x a).2 b⟩⟩
    | h11 d ih =>
      rw [unnumpy_dict, has_dict, has_dict, or_iff_right (by simp [NotJson, IsInt64, IsOther, IsArray]),
        or_iff_right (by simp [IsOther, IsTuple])]
      simp only [List.mem_map]
      exact ⟨fun ⟨_, ⟨x, a, e⟩, b⟩ => ⟨x, a, (ih x a).1 (by subst e; exact b)⟩,
        fun ⟨x, a, b⟩ => ⟨_, ⟨x, a, rfl⟩, (ih x a).2 b⟩⟩
  rw [(c93_json _).1, key]
  constructor
  · rintro ⟨y, hp, h | ⟨⟨l, rfl⟩, h⟩⟩
    exacts [.inl ⟨y, hp, h⟩, .inr ⟨l, hp, h⟩]
  · rintro (⟨y, hp, h⟩ | ⟨l, hp, h⟩)
    exacts [⟨y, hp, .inl h⟩, ⟨_, hp, .inr ⟨⟨l, rfl⟩, h⟩⟩]

/-- C93: an object that went through `unnumpy` can be read back from YAML unless it has a tuple or a numpy scalar other than
`np.int64` and `np.float64`. -/
theorem c93_unnumpy_yaml (v : PyVal) : yaml (unnumpy v) = none ↔ Has IsOther v ∨ Has IsTuple v := by
  have key : Has NotYaml (unnumpy v) ↔ Has (fun y => IsOther y ∨ IsTuple y) v := by
    induction v using pyval_ind with
    | h0 | h1 _ | h2 _ | h3 _ | h4 _ | h5 _ | h6 _ | h7 _ =>
      simp only [unnumpy]
      rw [has_leaf _ (by intro y h; cases h; rfl), has_leaf _ (by intro y h; cases h; rfl)]
      simp [NotYaml, IsInt64, IsOther, IsArray, IsTuple, IsFloat64]
    | h8 l ih =>
      rw [unnumpy_list, has_list, has_list, or_iff_right (by simp [NotYaml, IsInt64, IsOther, IsArray, IsFloat64, IsTuple]),
        or_iff_right (by simp [IsOther, IsTuple])]
      simp only [List.mem_map]
      exact ⟨fun ⟨_, ⟨x, a, e⟩, b⟩ => ⟨x, a, (ih x a).1 (e ▸ b)⟩, fun ⟨x, a, b⟩ => ⟨_, ⟨x, a, rfl⟩, (ih x a).2 b⟩⟩
    | h9 l ih =>
      simp only [unnumpy]
      exact iff_of_true ⟨_, .self, .inr (.inr (.inr (.inr ⟨l, rfl⟩)))⟩ ⟨_, .self, .inr ⟨l, rfl⟩⟩
    | h10 l ih =>
      rw [unnumpy_array, has_list, has_array, or_iff_right (by simp [NotYaml, IsInt64, IsOther, IsArray, IsFloat64, IsTuple]),
        or_iff_right (by simp [IsOther, IsTuple])]
      simp only [List.mem_map]
      exact ⟨fun ⟨_, ⟨x, a, e⟩, b⟩ => ⟨x, a, (ih x a).1 (e ▸ b)⟩, fun ⟨x, a, b⟩ => ⟨_, ⟨x, a, rfl⟩, (ih x a).2 b⟩⟩
    | h11 d ih =>
      rw [unnumpy_dict, has_dict, has_dict, or_iff_right (by simp [NotYaml, IsInt64, IsOther, IsArray, IsFloat64, IsTuple]),
        or_iff_right (by simp [IsOther, IsTuple])]
      simp only [List.mem_map]
      exact ⟨fun ⟨_, ⟨x, a, e⟩, b⟩ => ⟨x, a, (ih x a).1 (by subst e; exact b)⟩,
        fun ⟨x, a, b⟩ => ⟨_, ⟨x, a, rfl⟩, (ih x a).2 b⟩⟩
  rw [(c93_yaml _).1, key]
  constructor
  · rintro ⟨y, hp, h | h⟩
    exacts [.inl ⟨y, hp, h⟩, .inr ⟨y, hp, h⟩]
  · rintro (⟨y, hp, h⟩ | ⟨y, hp, h⟩)
    exacts [⟨y, hp, .inl h⟩, ⟨y, hp, .inr h⟩]

/-- The flavour used for a file: the one given, or the one of its name. -/
def usedFlavor (filename : String) (flavor : Option String) : String := flavor.getD (guessFlavor filename "json")

/-- C93: the flavour of a file whose name ends in `json` or `yaml` is that; all others, for example `.yml`, are JSON. -/
theorem c93_flavor (stem : String) :
    (usedFlavor (stem ++ ".json") none = "json" ∧ usedFlavor (stem ++ ".yaml") none = "yaml") ∧
    ∀ name, (¬ "yaml".toList <:+ name.toList) → usedFlavor name none = "json" := by
  refine ⟨⟨?_, ?_⟩, ?_⟩
  · unfold usedFlavor guessFlavor
    rw [Option.getD_none, if_pos]
    rw [String.toList_append]
    exact List.IsSuffix.trans (by decide) (List.suffix_append _ ".json".toList)
  · unfold usedFlavor guessFlavor
    have h : "yaml".toList <:+ (stem ++ ".yaml").toList := by
      rw [String.toList_append]
      exact List.IsSuffix.trans (by decide) (List.suffix_append _ ".yaml".toList)
    rw [Option.getD_none, if_neg, if_pos h]
    intro h'
    exact absurd (List.IsSuffix.eq_of_length (List.suffix_of_suffix_length_le h' h (by decide)) (by decide)) (by decide)
  · intro name h
    unfold usedFlavor guessFlavor
    rw [Option.getD_none, if_neg h]
    split_ifs <;> rfl

/-- C93: what was saved as JSON without an error is read back as the data it stands for; other files are not touched. -/
theorem c93_save_load (fs fs' : Disk) (name : String) (flavor : Option String) (hf : usedFlavor name flavor = "json") (v : PyVal)
    (h : save fs name flavor v = (fs', .ok ())) :
    load fs' name flavor = .ok (means v) ∧ ∀ n ≠ name, fs' n = fs n := by
  have hf' : flavor.getD (guessFlavor name "json") = "json" := hf
  unfold save at h
  dsimp only at h
  rw [if_pos hf'] at h
  cases hj : json v with
  | none => rw [hj] at h; simp at h
  | some w =>
    rw [hj] at h
    dsimp only at h
    simp only [Prod.mk.injEq, and_true] at h
    subst h
    refine ⟨?_, fun n hn => Function.update_of_ne hn _ _⟩
    unfold load
    dsimp only
    rw [Function.update_self]
    dsimp only
    rw [if_pos hf', (c93_json v).2 w hj]

/-- C93: saving as YAML does not raise, but the file can be read only if no part of the object is a tuple, an array or a
numpy scalar; what is read is then the data it stands for. -/
theorem c93_save_load_yaml (fs : Disk) (name : String) (flavor : Option String) (hf : usedFlavor name flavor = "yaml") (v : PyVal) :
    ∃ fs', save fs name flavor v = (fs', .ok ()) ∧ (∀ n ≠ name, fs' n = fs n) ∧
      (¬ Has NotYaml v → load fs' name flavor = .ok (means v)) ∧ (Has NotYaml v → load fs' name flavor = .error .valueError) := by
  have hf' : flavor.getD (guessFlavor name "json") = "yaml" := hf
  unfold save
  dsimp only
  rw [hf', if_neg (by decide), if_pos rfl]
  refine ⟨_, rfl, fun n hn => Function.update_of_ne hn _ _, fun h => ?_, fun h => ?_⟩
  · unfold load
    dsimp only
    rw [Function.update_self, hf']
    dsimp only
    rw [if_neg (by decide), if_pos rfl]
    cases hy : yaml v with
    | none => exact absurd ((c93_yaml v).1.1 hy) h
    | some w => rw [(c93_yaml v).2 w hy]
  · unfold load
    dsimp only
    rw [Function.update_self, hf']
    dsimp only
    rw [if_neg (by decide), if_pos rfl, (c93_yaml v).1.2 h]

/-- C93, a finding: a `save` that raises has already emptied the file: what was in it before, `old`, cannot be read any more,
in any flavour; also if only the name of the flavour was wrong. -/
theorem c93_save_fails (fs fs' : Disk) (name : String) (flavor : Option String) (v : PyVal) (e : PyErr)
    (h : save fs name flavor v = (fs', .error e)) :
    (∀ fl, load fs' name fl = .ok .none ∨ ∃ e', load fs' name fl = .error e') ∧
    (usedFlavor name flavor = "json" ∧ Has NotJson v ∧ e = .typeError ∨
      usedFlavor name flavor ≠ "json" ∧ usedFlavor name flavor ≠ "yaml" ∧ e = .keyError) := by
  have broken : ∀ c, (c = Content.empty ∨ c = .broken) → ∀ fl, load (Function.update fs name (some c)) name fl = .ok .none ∨
      ∃ e', load (Function.update fs name (some c)) name fl = .error e' := by
    intro c hc fl
    unfold load
    dsimp only
    rw [Function.update_self]
    dsimp only
    by_cases h1 : fl.getD (guessFlavor name "json") = "json"
    · rw [if_pos h1]
      rcases hc with rfl | rfl <;> exact .inr ⟨_, rfl⟩
    · rw [if_neg h1]
      by_cases h2 : fl.getD (guessFlavor name "json") = "yaml"
      · rw [if_pos h2]
        rcases hc with rfl | rfl
        exacts [.inl rfl, .inr ⟨_, rfl⟩]
      · rw [if_neg h2]
        exact .inr ⟨_, rfl⟩
  unfold save at h
  dsimp only at h
  by_cases h1 : flavor.getD (guessFlavor name "json") = "json"
  · rw [if_pos h1] at h
    cases hj : json v with
    | some w => rw [hj] at h; simp at h
    | none =>
      rw [hj] at h
      simp only [Prod.mk.injEq, Except.error.injEq] at h
      obtain ⟨rfl, rfl⟩ := h
      exact ⟨broken _ (.inr rfl), .inl ⟨h1, (c93_json v).1.1 hj, rfl⟩⟩
  · rw [if_neg h1] at h
    by_cases h2 : flavor.getD (guessFlavor name "json") = "yaml"
    · rw [if_pos h2] at h
      simp at h
    · rw [if_neg h2] at h
      simp only [Prod.mk.injEq, Except.error.injEq] at h
      obtain ⟨rfl, rfl⟩ := h
      exact ⟨broken _ (.inl rfl), .inr ⟨h1, h2, rfl⟩⟩

/-- C93: with an unknown flavour `save` always fails. -/
theorem c93_unknown_flavor (fs : Disk) (name fl : String) (h1 : fl ≠ "json") (h2 : fl ≠ "yaml") (v : PyVal) :
    (save fs name (some fl) v).2 = .error .keyError ∧ (save fs name (some fl) v).1 name = some .empty := by
  unfold save
  dsimp only
  rw [Option.getD_some, if_neg h1, if_neg h2]
  exact ⟨rfl, Function.update_self _ _ _⟩

/-- C93: a process which is stopped while it saves leaves the other files as they were, and a file that cannot be read. -/
theorem c93_save_crash (fs : Disk) (name : String) :
    (∀ n ≠ name, saveCrash fs name n = fs n) ∧ load (saveCrash fs name) name (some "json") = .error .valueError ∧
    load (saveCrash fs name) name (some "yaml") = .error .valueError := by
  refine ⟨fun n hn => Function.update_of_ne hn _ _, ?_, ?_⟩ <;> simp [load, saveCrash]

/-- C93, a finding: no object can be dumped to a string. -/
theorem c93_dump_markup (v : PyVal) (fl : String) : ∀ w, dumpMarkup v fl ≠ .ok w := by
  intro w h
  cases h

/-- C93: a dataset can be saved as JSON and read back, with the values of its auxiliary observables; as YAML it can be read
back only if it has none (a finding). -/
theorem c93_data (channels : List PyVal) (hc : ∀ c ∈ channels, ¬ Has NotYaml c) (aux : List (String × ℝ)) :
    json (dataPayload channels aux) = some (.dict [("data", .dict [("channels", .list (channels.map means)),
      ("aux_obs", .list (aux.map fun a => .dict [("name", .str a.1), ("value", .num a.2)]))])]) ∧
    (yaml (dataPayload channels aux) = none ↔ aux ≠ []) := by
  have e : ∀ B : PyVal → Prop, (∀ d, ¬ B (.dict d)) → (∀ l, ¬ B (.list l)) → (∀ s, ¬ B (.str s)) → (∀ c ∈ channels, ¬ Has B c) →
      (Has B (dataPayload channels aux) ↔ ∃ a ∈ aux, B (.npFloat64 a.2)) := by
    intro B hd hl hs hc
    have hf : ∀ x, Has B (.npFloat64 x) ↔ B (.npFloat64 x) := fun x => has_leaf _ (by intro y h; cases h; rfl)
    have hs' : ∀ x, ¬ Has B (.str x) := fun x => by rw [has_leaf _ (by intro y h; cases h; rfl)]; exact hs x
    unfold dataPayload
    simp only [has_dict, has_list, hd, hl, false_or, List.mem_cons, List.not_mem_nil, or_false, exists_eq_left, exists_eq_or_imp,
      List.mem_map, exists_exists_and_eq_and, hf, hs']
    exact or_iff_right (fun ⟨x, a, b⟩ => hc x a b)
  refine ⟨?_, ?_⟩
  · cases hj : json (dataPayload channels aux) with
    | none =>
      have := (c93_json _).1.1 hj
      rw [e NotJson (by simp [NotJson, IsInt64, IsOther, IsArray]) (by simp [NotJson, IsInt64, IsOther, IsArray])
        (by simp [NotJson, IsInt64, IsOther, IsArray])] at this
      · obtain ⟨a, -, h⟩ := this
        simp [NotJson, IsInt64, IsOther, IsArray] at h
      · rintro c hc' ⟨y, a, b⟩
        exact hc c hc' ⟨y, a, by rcases b with b | b | b; exacts [.inl b, .inr (.inr (.inl b)), .inr (.inr (.inr (.inl b)))]⟩
    | some w =>
      rw [(c93_json _).2 w hj]
      simp [dataPayload, means_dict, means_list, means]
  · rw [(c93_yaml _).1, e NotYaml (by simp [NotYaml, IsInt64, IsOther, IsArray, IsFloat64, IsTuple])
      (by simp [NotYaml, IsInt64, IsOther, IsArray, IsFloat64, IsTuple])
      (by simp [NotYaml, IsInt64, IsOther, IsArray, IsFloat64, IsTuple]) hc]
    constructor
    · rintro ⟨a, h, -⟩ rfl
      simp at h
    · intro h
      obtain ⟨a, l, rfl⟩ := List.exists_cons_of_ne_nil h
      exact ⟨a, List.mem_cons_self, .inr (.inl ⟨_, rfl⟩)⟩

/-- C93, a finding: a raster with p-values can never be read back from YAML. -/
theorem c93_raster_yaml (hypo ff hf : PyVal) (ts : List (String × ℝ)) (pv : String × ℝ) (pvs : List (String × ℝ)) (raster : String)
    (pre post : List PyVal) :
    yaml (.dict [(raster, .list (pre ++ plrPayload hypo ff hf ts (pv :: pvs) :: post))]) = none := by
  rw [(c93_yaml _).1]
  refine ⟨.npFloat64 pv.2, ?_, .inr (.inl ⟨_, rfl⟩)⟩
  refine .dict (kv := (raster, .list (pre ++ plrPayload hypo ff hf ts (pv :: pvs) :: post))) (List.mem_singleton.2 rfl) (.list (x := plrPayload hypo ff hf ts (pv :: pvs)) (by simp) ?_)
  unfold plrPayload
  exact .dict (kv := ("pvs", .dict ((pv :: pvs).map fun t => (t.1, .npFloat64 t.2)))) (by simp)
    (.dict (kv := (pv.1, .npFloat64 pv.2)) (by simp) .self)

/-- C93, a finding: a model with a Gaussian channel cannot be saved in any flavour: JSON raises, after the file was emptied,
and the YAML file cannot be read. -/
theorem c93_gaussian (fs : Disk) (fname : String) (other : List (String × PyVal)) (pre post : List PyVal) (name : String)
    (bins : PyVal) (cov : List (List ℝ)) (samples : List PyVal) :
    let v := modelPayload other (pre ++ gaussianPayload name bins cov samples :: post)
    save fs fname (some "json") v = (Function.update fs fname (some .broken), .error .typeError) ∧ yaml v = none := by
  intro v
  have hp : Part (.array (cov.map fun row => .array (row.map .npFloat64))) v := by
    refine .dict (kv := ("model", .dict (other ++ [("channels", .list (pre ++ gaussianPayload name bins cov samples :: post))])))
      (List.mem_singleton.2 rfl)
      (.dict (kv := ("channels", .list (pre ++ gaussianPayload name bins cov samples :: post))) (by simp)
      (.list (x := gaussianPayload name bins cov samples) (by simp) ?_))
    unfold gaussianPayload
    exact .dict (kv := ("covariance", .array (cov.map fun row => .array (row.map .npFloat64)))) (by simp) .self
  refine ⟨?_, (c93_yaml v).1.2 ⟨_, hp, .inr (.inr (.inr (.inl ⟨_, rfl⟩)))⟩⟩
  unfold save
  dsimp only
  rw [Option.getD_some, if_pos rfl, (c93_json v).1.2 ⟨_, hp, .inr (.inr ⟨_, rfl⟩)⟩]

/-! ## Examples -/

example : json (unnumpy (.dict [("a", .array [.npFloat64 1, .npInt64 2]), ("b", .str "x")])) =
    some (.dict [("a", .list [.num 1, .num 2]), ("b", .str "x")]) := by
  simp [unnumpy_dict, unnumpy_array, unnumpy, json_dict, json_list, json]

/-- A tuple of `np.int64` survives `unnumpy` and is refused. -/
example : json (unnumpy (.list [.tuple [.npInt64 2]])) = none :=
  (c93_unnumpy_json _).2 (.inr ⟨[.npInt64 2], .list List.mem_cons_self .self,
    .npInt64 2, .tuple List.mem_cons_self .self, .inl ⟨2, rfl⟩⟩)

example (fs : Disk) : ∃ fs', save fs "m.json" none (.dict [("mu", .npFloat64 1)]) = (fs', .ok ()) ∧
    load fs' "m.json" none = .ok (.dict [("mu", .num 1)]) := by
  have hf : usedFlavor "m.json" none = "json" := (c93_flavor "m").1.1
  have : ∃ fs', save fs "m.json" none (.dict [("mu", .npFloat64 1)]) = (fs', .ok ()) := by
    unfold save
    dsimp only
    rw [if_pos (show (none : Option String).getD (guessFlavor "m.json" "json") = "json" from hf)]
    simp [json_dict, json]
  obtain ⟨fs', h⟩ := this
  refine ⟨fs', h, ?_⟩
  rw [(c93_save_load fs fs' "m.json" none hf _ h).1]
  simp [means_dict, means]

/-- The file with a model is lost when the model with a Gaussian channel is saved over it. -/
example (fs : Disk) (old : MVal ℝ) (h : fs "m.json" = some (.jsonDoc old)) :
    load fs "m.json" (some "json") = .ok old ∧
    load (save fs "m.json" (some "json") (modelPayload [] [gaussianPayload "c" (.list []) [[1]] []])).1 "m.json" (some "json")
      = .error .valueError := by
  refine ⟨by simp [load, h], ?_⟩
  have := (c93_gaussian fs "m.json" [] [] [] "c" (.list []) [[1]] []).1
  simp only [List.nil_append] at this
  rw [this]
  simp [load]

example : yaml (dataPayload [.dict [("name", .str "c"), ("counts", .int 3)]] [("aux", 1)]) = none := by
  refine (c93_data _ ?_ _).2.2 (by simp)
  rintro c hc ⟨y, hp, hb⟩
  rw [List.mem_singleton] at hc
  subst hc
  rcases (part_dict _ _).1 hp with rfl | ⟨kv, hkv, hp⟩
  · simp [NotYaml, IsInt64, IsOther, IsArray, IsFloat64, IsTuple] at hb
  · simp only [List.mem_cons, List.not_mem_nil, or_false] at hkv
    rcases hkv with rfl | rfl <;> cases hp <;> simp [NotYaml, IsInt64, IsOther, IsArray, IsFloat64, IsTuple] at hb

end Verif.Props
