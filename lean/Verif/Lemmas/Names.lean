import Verif.Lemmas.Readback
/-
The names that modifiers are chosen from, and what the tokens of an operand that contain such a name stand for.
-/

namespace Nxas

open Spec

/-- A list of names for the values 0, 1, 2, ... of a field (an empty name stands for no name); in the source
    they are written with a prefix. -/
structure NameTable where
  pfx : Str
  names : List Str
  pos : Nat
  width : Nat
deriving DecidableEq

/-- The names of an operand. (The names of `TLDS` and `TEXS` types have no value of their own, see C47. `.128`
    is value 6, but 7 after `.U`.) -/
def Operand.names : Operand → List NameTable
  | .dotTable d a t => [⟨c!".", t, a, Nxas.width (max (t.length - 1) (d.getD 0))⟩]
  | .bop a => [⟨c!".", [c!"AND", c!"OR", c!"XOR", c!"INVALIDBOP3"], a, 2⟩]
  | .ccTests a t => [⟨c!".", t, a, Nxas.width (max (t.length - 1) 15)⟩]
  | .plainTable a t => [⟨[], t, a, Nxas.width (t.length - 1)⟩]
  | .s2r t => [⟨[], t, 20, Nxas.width (max (t.length - 1) 39)⟩]
  | .intFormat u s a _ => [⟨c!".", u, a, Nxas.width (max (u.length - 1) (s.length - 1))⟩,
      ⟨c!".", s, a, Nxas.width (max (u.length - 1) (s.length - 1))⟩]
  | .selector a _ _ x y => [⟨c!".", x, a, Nxas.width (max (x.length - 1) (y.length - 1))⟩,
      ⟨c!".", y, a, Nxas.width (max (x.length - 1) (y.length - 1))⟩]
  | .texType a => [⟨[], [c!"1D", c!"ARRAY_1D", c!"2D", c!"ARRAY_2D", c!"3D", c!"ARRAY_3D", c!"CUBE", c!"ARRAY_CUBE"], a, 3⟩]
  | .ldgSize => [⟨c!".", [c!"U8", c!"S8", c!"U16", c!"S16", c!"32", c!"64"], 48, 3⟩]
  | .atomicSize a => [⟨c!".", [c!"U32", c!"S32", c!"U64", c!"F32", c!"F16x2", c!"S64"], a, 3⟩]
  | .srcFormat a _ => [⟨c!".", [c!"S8", [], c!"S16", c!"S32"], a, 2⟩, ⟨c!".", [c!"U8", [], c!"U16", c!"U32"], a, 2⟩]
  | .immFormat s => [⟨c!".", [c!"U16", c!"S16"], s, 1⟩]
  | .f2fRounding => [⟨c!".", [c!"RN", c!"RM", c!"RP", c!"RZ"], 39, 2⟩, ⟨c!".", [c!"ROUND", c!"FLOOR", c!"CEIL", c!"TRUNC"], 39, 2⟩]
  | .texsSwizzle => [⟨[], [c!"R", c!"G", c!"B", c!"A", c!"RG", c!"RA", c!"GA", c!"BA"], 50, 3⟩,
      ⟨[], [c!"RGB", c!"RGA", c!"RBA", c!"GBA", c!"RGBA"], 50, 3⟩]
  | _ => []

/-- The texts of the names of an operand and their values. -/
def Operand.spellings (o : Operand) : List (Str × Nat) :=
  o.names.flatMap fun T => T.names.zipIdx.filterMap fun x => if x.1 = [] then none else some (T.pfx ++ x.1, x.2)

/-- Words with a meaning of their own. -/
def Operand.keywords : Operand → List Str
  | .ccTests .. => [c!"CC"]
  | .s2r _ => [c!"SR_TID", c!"SR_CTAID", c!".X", c!".Y", c!".Z"]
  | _ => []

/-- A name has one value; the names fit in their field, and the field is apart from the others. -/
def Operand.named (o : Operand) : Bool :=
  (o.spellings.all fun x => ! o.keywords.contains x.1 && o.spellings.all fun y => x.1 != y.1 || x.2 == y.2) &&
  (o.names.all fun T => T.pos + T.width ≤ 64 && T.names.length ≤ 2 ^ T.width && o.fields.contains (T.pos, T.width)) &&
  (o.names == [] || apartList o.fields)

theorem table_named : ∀ row ∈ insnTable, ∀ o ∈ row.operands, o.named = true := by decide +kernel

theorem Operand.mem_spellings {o : Operand} {T : NameTable} {n : Nat} {name : Str} (hT : T ∈ o.names)
    (hn : T.names[n]? = some name) (hne : name ≠ []) : (T.pfx ++ name, n) ∈ o.spellings := by
  refine List.mem_flatMap.2 ⟨T, hT, List.mem_filterMap.2 ⟨(name, n), ?_, by simp [hne]⟩⟩
  rw [List.mem_zipIdx_iff_getElem?]
  exact hn

theorem Operand.named.unique {o : Operand} (h : o.named = true) {w : Str} {m n : Nat} (hm : (w, m) ∈ o.spellings)
    (hn : (w, n) ∈ o.spellings) : m = n := by
  simp only [Operand.named, Bool.and_eq_true, List.all_eq_true] at h
  have := (h.1.1 _ hm).2 _ hn
  simpa using this

theorem Operand.named.word {o : Operand} (h : o.named = true) {w : Str} {m : Nat} (hm : (w, m) ∈ o.spellings) : w ∉ o.keywords := by
  simp only [Operand.named, Bool.and_eq_true, List.all_eq_true] at h
  simpa using (h.1.1 _ hm).1

theorem Operand.named.entry {o : Operand} (h : o.named = true) {T T' : NameTable} {n i : Nat} {name : Str} (hT : T ∈ o.names)
    (hT' : T' ∈ o.names) (hn : T.names[n]? = some name) (hne : name ≠ []) (hp : T.pfx = T'.pfx)
    (he : Entry T'.pfx T'.names (.ident (T.pfx ++ name)) i) : i = n := by
  obtain ⟨name', h1, h2, -⟩ := he
  rw [hp] at h1
  obtain rfl : name = name' := by simpa using h1
  have h3 := mem_spellings hT hn hne
  rw [hp] at h3
  exact named.unique h (mem_spellings hT' h2 hne) h3

theorem ldg_index : ∀ n < 6, ∀ i < 7, [c!"U8", c!"S8", c!"U16", c!"S16", c!"32", c!"64", c!"128"][i]? =
    [c!"U8", c!"S8", c!"U16", c!"S16", c!"32", c!"64"][n]? → i = n := by decide

theorem ldg_other : ∀ n < 6, [c!"U8", c!"S8", c!"U16", c!"S16", c!"32", c!"64"][n]? ≠ some c!"U" ∧
    [c!"U8", c!"S8", c!"U16", c!"S16", c!"32", c!"64"][n]? ≠ some c!"128" := by decide

/-- The tokens of an operand contain the name of value `n`: then its field contains `n`. -/
theorem accepts_names {o : Operand} (h : o.named = true) {T : NameTable} {n : Nat} {name : Str} (hT : T ∈ o.names)
    (hn : T.names[n]? = some name) (hne : name ≠ []) {e : Env} {v : BitVec 64} {ks : List Kind} {k' : Kind} {b : BitVec 64}
    {r : BitVec 32} (ha : Accepts e v o ks k' b r) (hk : .ident (T.pfx ++ name) ∈ ks) :
    ∃ x, b = field T.pos n ||| x ∧ (x = 0 ∨ ∃ s, x = field s 1 ∧ (T.pos + T.width ≤ s ∨ s + 1 ≤ T.pos)) := by
  have key := @Operand.named.entry o h T
  have hw := Operand.named.word h (Operand.mem_spellings hT hn hne)
  have hu := fun m => @Operand.named.unique o h (T.pfx ++ name) m n
  have hs := Operand.mem_spellings hT hn hne
  cases o with
  | dotTable d a t =>
    simp only [Operand.names, List.mem_singleton] at hT
    obtain ⟨-, ⟨k, i, rfl, he, rfl⟩ | ⟨d, -, rfl, -⟩⟩ := ha
    · simp only [List.mem_singleton] at hk
      subst hT hk
      obtain rfl := key (T' := ⟨_, _, _, _⟩) (by simp [Operand.names]) (by simp [Operand.names]) hn hne rfl he
      exact ⟨0, by simp, .inl rfl⟩
    · simp at hk
  | bop a =>
    simp only [Operand.names, List.mem_singleton] at hT
    obtain ⟨-, k, i, rfl, he, rfl⟩ := ha
    simp only [List.mem_singleton] at hk
    subst hT hk
    obtain rfl := key (T' := ⟨_, _, _, _⟩) (by simp [Operand.names]) (by simp [Operand.names]) hn hne rfl he
    exact ⟨0, by simp, .inl rfl⟩
  | plainTable a t =>
    simp only [Operand.names, List.mem_singleton] at hT
    obtain ⟨-, k, i, rfl, he, rfl⟩ := ha
    simp only [List.mem_singleton] at hk
    subst hT hk
    obtain rfl := key (T' := ⟨_, _, _, _⟩) (by simp [Operand.names]) (by simp [Operand.names]) hn hne rfl he
    exact ⟨0, by simp, .inl rfl⟩
  | texType a =>
    simp only [Operand.names, List.mem_singleton] at hT
    obtain ⟨-, k, i, rfl, he, rfl⟩ := ha
    simp only [List.mem_singleton] at hk
    subst hT hk
    obtain rfl := key (T' := ⟨_, _, _, _⟩) (by simp [Operand.names]) (by simp [Operand.names]) hn hne rfl he
    exact ⟨0, by simp, .inl rfl⟩
  | ccTests a t =>
    simp only [Operand.names, List.mem_singleton] at hT
    obtain ⟨-, ⟨k, i, rfl, he, rfl⟩ | ⟨rfl, -⟩⟩ := ha
    · simp only [List.mem_cons, List.not_mem_nil, or_false] at hk
      rcases hk with hk | hk
      · simp only [Operand.keywords, List.mem_singleton] at hw
        exact (hw (by simpa using hk)).elim
      · subst hT hk
        obtain rfl := key (T' := ⟨_, _, _, _⟩) (by simp [Operand.names]) (by simp [Operand.names]) hn hne rfl he
        exact ⟨0, by simp, .inl rfl⟩
    · simp at hk
  | s2r t =>
    simp only [Operand.names, List.mem_singleton] at hT
    simp only [Operand.keywords, List.mem_cons, List.not_mem_nil, or_false, not_or] at hw
    obtain ⟨w1, w2, w3, w4, w5⟩ := hw
    obtain ⟨-, ⟨s, x, hx, rfl, -⟩ | ⟨rfl, -⟩ | ⟨s, x, hx, rfl, -⟩ | ⟨k, i, rfl, -, -, he, rfl⟩⟩ := ha
    · simp only [List.mem_cons, List.not_mem_nil, or_false, Prod.mk.injEq, Kind.ident.injEq] at hx hk
      rcases hx with ⟨rfl, -⟩ | ⟨rfl, -⟩ | ⟨rfl, -⟩ <;> grind
    · simp only [List.mem_cons, List.not_mem_nil, or_false, Kind.ident.injEq] at hk
      grind
    · simp only [List.mem_cons, List.not_mem_nil, or_false, Prod.mk.injEq, Kind.ident.injEq] at hx hk
      rcases hx with ⟨rfl, -⟩ | ⟨rfl, -⟩ | ⟨rfl, -⟩ <;> grind
    · simp only [List.mem_singleton] at hk
      subst hT hk
      obtain rfl := key (T' := ⟨_, _, _, _⟩) (by simp [Operand.names]) (by simp [Operand.names]) hn hne rfl he
      exact ⟨0, by simp, .inl rfl⟩
  | intFormat u t a b =>
    have hap : a + Nxas.width (max (u.length - 1) (t.length - 1)) ≤ b ∨ b + 1 ≤ a := by
      simp only [Operand.named, Bool.and_eq_true, Bool.or_eq_true] at h
      rcases h.2 with h | h
      · simp [Operand.names] at h
      · simpa [Operand.fields, apartList, Field.apart] using h
    obtain ⟨-, k, i, rfl, ⟨he, rfl⟩ | ⟨-, he, rfl⟩⟩ := ha
    all_goals
      simp only [List.mem_singleton] at hk
      simp only [Operand.names, List.mem_cons, List.not_mem_nil, or_false] at hT
      have hp : T.pfx = c!"." := by rcases hT with rfl | rfl <;> rfl
      have h1 : T.pos = a := by rcases hT with rfl | rfl <;> rfl
      have h2 : T.width = Nxas.width (max (u.length - 1) (t.length - 1)) := by rcases hT with rfl | rfl <;> rfl
      subst hk
      rw [h1, h2]
    · obtain rfl := key (T' := ⟨c!".", u, a, Nxas.width (max (u.length - 1) (t.length - 1))⟩) (by simpa [Operand.names] using hT)
        (by simp [Operand.names]) hn hne hp he
      exact ⟨0, by simp, .inl rfl⟩
    · obtain rfl := key (T' := ⟨c!".", t, a, Nxas.width (max (u.length - 1) (t.length - 1))⟩) (by simpa [Operand.names] using hT)
        (by simp [Operand.names]) hn hne hp he
      exact ⟨_, BitVec.or_comm .., .inr ⟨_, rfl, hap⟩⟩
  | selector a ta sh x y =>
    simp only [Operand.names, List.mem_cons, List.not_mem_nil, or_false] at hT
    have hp : T.pfx = c!"." := by rcases hT with rfl | rfl <;> rfl
    have h1 : T.pos = a := by rcases hT with rfl | rfl <;> rfl
    obtain ⟨-, ⟨k, i, rfl, he, rfl⟩ | ⟨d, -, rfl, -⟩⟩ := ha
    · simp only [List.mem_singleton] at hk
      subst hk
      rw [h1]
      obtain rfl : i = n := by
        split at he
        · exact key (T' := ⟨c!".", x, a, Nxas.width (max (x.length - 1) (y.length - 1))⟩) (by simpa [Operand.names] using hT)
            (by simp [Operand.names]) hn hne hp he
        · exact key (T' := ⟨c!".", y, a, Nxas.width (max (x.length - 1) (y.length - 1))⟩) (by simpa [Operand.names] using hT)
            (by simp [Operand.names]) hn hne hp he
      exact ⟨0, by simp, .inl rfl⟩
    · simp at hk
  | texsSwizzle =>
    simp only [Operand.names, List.mem_cons, List.not_mem_nil, or_false] at hT
    have hp : T.pfx = [] := by rcases hT with rfl | rfl <;> rfl
    have h1 : T.pos = 50 := by rcases hT with rfl | rfl <;> rfl
    obtain ⟨-, k, i, rfl, rfl, he⟩ := ha
    simp only [List.mem_singleton] at hk
    subst hk
    rw [h1]
    obtain rfl : i = n := by
      split at he
      · exact key (T' := ⟨[], [c!"R", c!"G", c!"B", c!"A", c!"RG", c!"RA", c!"GA", c!"BA"], 50, 3⟩) (by simpa [Operand.names] using hT)
          (by simp [Operand.names]) hn hne hp he
      · exact key (T' := ⟨[], [c!"RGB", c!"RGA", c!"RBA", c!"GBA", c!"RGBA"], 50, 3⟩) (by simpa [Operand.names] using hT)
          (by simp [Operand.names]) hn hne hp he
    exact ⟨0, by simp, .inl rfl⟩
  | immFormat a =>
    simp only [Operand.names, List.mem_singleton] at hT
    obtain ⟨-, ⟨k, i, rfl, he, rfl⟩ | ⟨d, -, rfl, -⟩⟩ := ha
    · simp only [List.mem_singleton] at hk
      subst hT hk
      obtain rfl := key (T' := ⟨_, _, _, _⟩) (by simp [Operand.names]) (by simp [Operand.names]) hn hne rfl he
      exact ⟨0, by simp, .inl rfl⟩
    · simp at hk
  | ldgSize =>
    simp only [Operand.names, List.mem_singleton] at hT
    subst hT
    obtain ⟨-, ⟨k, i, rfl, ⟨name', h1, h2, -⟩, rfl⟩ | ⟨rfl, rfl⟩ | ⟨rfl, -⟩⟩ := ha
    · simp only [List.mem_singleton] at hk
      subst hk
      obtain rfl : name = name' := by simpa using h1
      have hi : i < 7 := (List.getElem?_eq_some_iff.1 h2).1
      have hn6 : n < 6 := (List.getElem?_eq_some_iff.1 hn).1
      obtain rfl : i = n := by
        simp only at hn
        rw [← hn] at h2
        exact ldg_index n hn6 i hi h2
      exact ⟨0, by simp, .inl rfl⟩
    · exfalso
      have hn6 : n < 6 := (List.getElem?_eq_some_iff.1 hn).1
      simp only [List.mem_cons, List.not_mem_nil, or_false, Kind.ident.injEq] at hk
      have : name = c!"U" ∨ name = c!"128" := by
        rcases hk with hk | hk
        · exact .inl (by simpa using hk)
        · exact .inr (by simpa using hk)
      simp only at hn
      rcases this with rfl | rfl
      · exact (ldg_other n hn6).1 hn
      · exact (ldg_other n hn6).2 hn
    · simp at hk
  | srcFormat a b =>
    have hap : a + 2 ≤ b ∨ b + 1 ≤ a := by
      simp only [Operand.named, Bool.and_eq_true, Bool.or_eq_true] at h
      rcases h.2 with h | h
      · simp [Operand.names] at h
      · simpa [Operand.fields, apartList, Field.apart] using h
    simp only [Operand.names, List.mem_cons, List.not_mem_nil, or_false] at hT
    have hp : T.pfx = c!"." := by rcases hT with rfl | rfl <;> rfl
    have h1 : T.pos = a := by rcases hT with rfl | rfl <;> rfl
    have h2 : T.width = 2 := by rcases hT with rfl | rfl <;> rfl
    rw [h1, h2]
    obtain ⟨-, ⟨k, i, rfl, he, rfl⟩ | ⟨s, x, hx, rfl, rfl⟩ | ⟨rfl, -⟩⟩ := ha
    · simp only [List.mem_singleton] at hk
      subst hk
      obtain rfl := key (T' := ⟨c!".", [c!"S8", [], c!"S16", c!"S32"], a, 2⟩) (by simpa [Operand.names] using hT)
        (by simp [Operand.names]) hn hne hp he
      exact ⟨_, rfl, .inr ⟨_, rfl, hap⟩⟩
    · simp only [List.mem_singleton, Kind.ident.injEq] at hk
      obtain rfl : x = n := by
        refine hu x ?_ hs
        rw [hk]
        simp only [List.mem_cons, List.not_mem_nil, or_false, Prod.mk.injEq] at hx
        rcases hx with ⟨rfl, rfl⟩ | ⟨rfl, rfl⟩ | ⟨rfl, rfl⟩ <;> simp [Operand.spellings, Operand.names]
      exact ⟨0, by simp, .inl rfl⟩
    · simp at hk
  | atomicSize a =>
    simp only [Operand.names, List.mem_singleton] at hT
    subst hT
    have hm : ∀ x : Nat, (∃ s ∈ ks, s = .ident (c!"." ++ name) ∧ ∃ s', s = .ident s' ∧
        (s', x) ∈ [(c!".U32", 0), (c!".S32", 1), (c!".U64", 2), (c!".F32", 3), (c!".F16x2", 4), (c!".S64", 5)]) → x = n := by
      rintro x ⟨s, -, rfl, s', h1, h2⟩
      refine hu x ?_ hs
      rw [Kind.ident.injEq] at h1
      rw [h1]
      simp only [List.mem_cons, List.not_mem_nil, or_false, Prod.mk.injEq] at h2
      rcases h2 with ⟨rfl, rfl⟩ | ⟨rfl, rfl⟩ | ⟨rfl, rfl⟩ | ⟨rfl, rfl⟩ | ⟨rfl, rfl⟩ | ⟨rfl, rfl⟩ <;>
        simp [Operand.spellings, Operand.names]
    have hno : ∀ w ∈ [c!".FTZ", c!".RN"], c!"." ++ name ≠ w := by
      intro w hw hc
      rw [hc] at hs
      simp only [List.mem_cons, List.not_mem_nil, or_false] at hw
      rcases hw with rfl | rfl <;> simp [Operand.spellings, Operand.names] at hs
    obtain ⟨-, ⟨s, x, hx, rfl, rfl⟩ | ⟨rfl, rfl⟩ | ⟨rfl, rfl⟩ | ⟨rfl, -⟩⟩ := ha
    · obtain rfl : x = n := by
        refine hm x ⟨_, hk, rfl, s, ?_, ?_⟩
        · simpa using hk
        · simp only [List.mem_cons, List.not_mem_nil, or_false, Prod.mk.injEq] at hx ⊢
          grind
      exact ⟨0, by simp, .inl rfl⟩
    · obtain rfl : 3 = n := by
        refine hm 3 ⟨_, hk, rfl, c!".F32", ?_, by simp⟩
        simp only [List.mem_cons, List.not_mem_nil, or_false, Kind.ident.injEq, forall_eq_or_imp, forall_eq] at hk hno ⊢
        grind
      exact ⟨0, by simp, .inl rfl⟩
    · obtain rfl : 4 = n := by
        refine hm 4 ⟨_, hk, rfl, c!".F16x2", ?_, by simp⟩
        simp only [List.mem_cons, List.not_mem_nil, or_false, Kind.ident.injEq, forall_eq_or_imp, forall_eq] at hk hno ⊢
        grind
      exact ⟨0, by simp, .inl rfl⟩
    · simp at hk
  | f2fRounding =>
    have hT' := hT
    simp only [Operand.names, List.mem_cons, List.not_mem_nil, or_false] at hT
    have hp : T.pfx = c!"." := by rcases hT with rfl | rfl <;> rfl
    have h1 : T.pos = 39 := by rcases hT with rfl | rfl <;> rfl
    have h2 : T.width = 2 := by rcases hT with rfl | rfl <;> rfl
    rw [h1, h2]
    unfold Accepts at ha
    split at ha
    · obtain ⟨-, ⟨k, s, x, rfl, hx, rfl, rfl⟩ | ⟨rfl, -⟩⟩ := ha
      · simp only [List.mem_singleton, Kind.ident.injEq] at hk
        simp only [List.mem_cons, List.not_mem_nil, or_false, Prod.mk.injEq] at hx
        rcases hx with ⟨rfl, rfl⟩ | ⟨rfl, rfl⟩ | ⟨rfl, rfl⟩ | ⟨rfl, rfl⟩ | ⟨rfl, rfl⟩
        · obtain rfl := hu 0 (by rw [hk]; decide) hs
          exact ⟨field 42 1, by decide, .inr ⟨42, rfl, by omega⟩⟩
        · obtain rfl := hu 1 (by rw [hk]; decide) hs
          exact ⟨field 42 1, by decide, .inr ⟨42, rfl, by omega⟩⟩
        · obtain rfl := hu 2 (by rw [hk]; decide) hs
          exact ⟨field 42 1, by decide, .inr ⟨42, rfl, by omega⟩⟩
        · obtain rfl := hu 3 (by rw [hk]; decide) hs
          exact ⟨field 42 1, by decide, .inr ⟨42, rfl, by omega⟩⟩
        · rw [hk] at hs
          simp [Operand.spellings, Operand.names] at hs
      · simp at hk
    · obtain ⟨-, ⟨k, i, rfl, he, rfl⟩ | ⟨d, -, rfl, -⟩⟩ := ha
      · simp only [List.mem_singleton] at hk
        subst hk
        obtain rfl := key (T' := ⟨c!".", [c!"RN", c!"RM", c!"RP", c!"RZ"], 39, 2⟩) hT'
          (by simp [Operand.names]) hn hne hp he
        exact ⟨0, by simp, .inl rfl⟩
      · simp at hk
  | _ => simp [Operand.names] at hT

/-- In these rows the operand with a name has bits of its own. -/
theorem table_names_alone : ∀ row ∈ insnTable, row.mnemonic ∉ [c!"VMAD", c!"VMNMX", c!"VSETP", c!"TLDS"] →
    ∀ j < row.operands.length, ∀ o ∈ row.operands[j]?, o.names ≠ [] → row.alone j = true := by decide +kernel

theorem Operand.named.field {o : Operand} (h : o.named = true) {T : NameTable} (hT : T ∈ o.names) :
    T.pos + T.width ≤ 64 ∧ T.names.length ≤ 2 ^ T.width ∧ (T.pos, T.width) ∈ o.fields := by
  simp only [Operand.named, Bool.and_eq_true, List.all_eq_true, decide_eq_true_eq, List.contains_iff_mem] at h
  have := h.1.2 T hT
  exact ⟨this.1.1, this.1.2, this.2⟩

end Nxas
