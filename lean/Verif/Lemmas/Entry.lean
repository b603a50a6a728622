import Verif.Lemmas.DisasmDksh
import Verif.Lemmas.Placid
/-
Sources of containers in which no assertion fails: the label of the entry point stands between the instructions.
-/

namespace Nxas

open Spec

/-! ### Groups -/

/-- Instructions that fill all groups. -/
theorem decodeAll_full : ∀ {i : Nat} {ws : List (BitVec 64)} {ks : List Kind}, decodeAll i ws = some ks →
    ∃ ops, groups ops = ws ∧ ops.length % 3 = 0 ∧ Texts (fun _ => none) i ops
  | i, [], ks, h => ⟨[], rfl, rfl, trivial⟩
  | i, c :: x :: y :: z :: rest, ks, h => by
    simp only [decodeAll, Option.bind_eq_bind, Option.pure_def, Option.bind_eq_some_iff, Option.some.injEq] at h
    obtain ⟨k1, h1, k2, h2, k3, h3, k4, h4, rfl⟩ := h
    obtain ⟨f1, t1⟩ := decodeAt_sound h1
    obtain ⟨f2, t2⟩ := decodeAt_sound h2
    obtain ⟨f3, t3⟩ := decodeAt_sound h3
    obtain ⟨ops, hg, hl, hp⟩ := decodeAll_full h4
    refine ⟨opOf x (c.toNat % 2 ^ 21) :: opOf y (c.toNat / 2 ^ 21 % 2 ^ 21) :: opOf z (c.toNat / 2 ^ 42) :: ops, ?_, ?_,
      ⟨k1, fun k hk => (f1 k hk).1, t1⟩, ⟨k2, fun k hk => (f2 k hk).1, t2⟩, ⟨k3, fun k hk => (f3 k hk).1, t3⟩, hp⟩
    · rw [groups, hg]
      unfold Spec.control
      have := c.isLt
      rw [slot_opOf (by omega), slot_opOf (by omega), slot_opOf (by omega), control_parts]
      rfl
    · simp only [List.length_cons]; omega
  | _, [_], _, h => by simp [decodeAll] at h
  | _, [_, _], _, h => by simp [decodeAll] at h
  | _, [_, _, _], _, h => by simp [decodeAll] at h

theorem texts_append {lab : Str → Option Nat} {i : Nat} {A B : List Op} : Texts lab i (A ++ B) ↔ Texts lab i A ∧ Texts lab (i + A.length) B := by
  induction A generalizing i with
  | nil => simp [Texts]
  | cons a A ih =>
    simp only [List.cons_append, Texts, ih, List.length_cons]
    rw [show i + 1 + A.length = i + (A.length + 1) by omega, and_assoc]

theorem no_zero : ∀ row ∈ insnTable, row.possible 0#64 = false := by decide +kernel

/-- The last word of the code is not 0. -/
theorem decodeAll_last : ∀ {i : Nat} {ws : List (BitVec 64)} {ks : List Kind}, decodeAll i ws = some ks → ws.getLast? ≠ some 0
  | _, [], _, _ => by simp
  | i, c :: x :: y :: z :: rest, ks, h => by
    simp only [decodeAll, Option.bind_eq_bind, Option.pure_def, Option.bind_eq_some_iff, Option.some.injEq] at h
    obtain ⟨k1, h1, k2, h2, k3, h3, k4, h4, rfl⟩ := h
    have ih := decodeAll_last h4
    cases rest with
    | nil =>
      intro hz
      obtain rfl : z = 0 := by simpa using hz
      unfold decodeAt at h3
      obtain ⟨a, h3, -⟩ := Option.map_eq_some_iff.1 h3
      obtain ⟨row, hr, h3⟩ := List.exists_of_findSome?_eq_some h3
      split at h3
      next hp =>
        change row.possible 0#64 = true at hp
        rw [no_zero row hr] at hp
        simp at hp
      next => simp at h3
    | cons w rest => simpa using ih
  | _, [_], _, h => by simp [decodeAll] at h
  | _, [_, _], _, h => by simp [decodeAll] at h
  | _, [_, _, _], _, h => by simp [decodeAll] at h

/-- Where zeros begin behind a word that is none. -/
theorem zeros_unique {A B : List (BitVec 64)} {m n : Nat} (ha : A.getLast? ≠ some 0) (hb : B.getLast? ≠ some 0)
    (h : A ++ List.replicate m 0 = B ++ List.replicate n 0) : A = B := by
  have key : ∀ {A B : List (BitVec 64)} {m n : Nat}, B.getLast? ≠ some 0 → A ++ List.replicate m 0 = B ++ List.replicate n 0 → B.length ≤ A.length := by
    intro A B m n hb h
    by_contra hlt
    apply hb
    have h1 : (A ++ List.replicate m (0 : BitVec 64))[B.length - 1]? = B[B.length - 1]? := by rw [h, List.getElem?_append_left (by omega)]
    rw [List.getLast?_eq_getElem?, ← h1, List.getElem?_append_right (by omega), List.getElem?_replicate, if_pos]
    have := congrArg List.length h
    simp only [List.length_append, List.length_replicate] at this
    omega
  exact (List.append_inj h (Nat.le_antisymm (key ha h.symm) (key hb h))).1

/-! ### Text -/

theorem scans_lines_then {l : Nat} {ls : List (List Kind)} (h : ∀ ks ∈ ls, ∀ k ∈ ks, Fine k) {t : Str} (hg : Gap t) {ts : List (Kind × Nat)}
    (ht : Scans (l + ls.length) t ts) : Scans l (linesText ls ++ t) (numbered (l + 1) ls ++ ts) := by
  induction ls generalizing l with
  | nil => exact ht
  | cons ks ls ih =>
    have hgap : Gap (linesText ls ++ t) := by
      cases ls with
      | nil => exact hg
      | cons k ks => intro c hc; right; simpa [linesText] using hc.symm
    have h1 := scans_line (h ks (by simp)) hgap (ih (l := l + 1) (fun ks hk => h ks (by simp [hk])) (by
      rw [List.length_cons] at ht
      rwa [show l + 1 + ls.length = l + (ls.length + 1) by omega]))
    have h2 := scans_skip (l := l) (s := ['\n']) (.blank (by decide) .nil) (by simpa [lineAfter] using h1)
    simpa [linesText, numbered] using h2

/-- No line begins with a word. -/
theorem linesText_breaks {ls : List (List Kind)} (h : ∀ ks ∈ ls, ∀ k ∈ ks, Fine k) {t : Str} (ht : Gap t) :
    ∀ pre rest, linesText ls = pre ++ '\n' :: rest → Gap (rest ++ t) := by
  induction ls with
  | nil => intro pre rest he; simp [linesText] at he
  | cons ks ls ih =>
    intro pre rest he
    have hgap : Gap (linesText ls ++ t) := by
      cases ls with
      | nil => exact ht
      | cons k ks => intro c hc; right; simpa [linesText] using hc.symm
    have hgap' : Gap (textOf ks ++ (linesText ls ++ t)) := by
      cases ks with
      | nil => exact hgap
      | cons k ks => intro c hc; left; simpa [textOf] using hc.symm
    rw [show linesText (ks :: ls) = '\n' :: (textOf ks ++ linesText ls) by simp [linesText]] at he
    cases pre with
    | nil =>
      simp only [List.nil_append, List.cons.injEq, true_and] at he
      rw [← he, List.append_assoc]
      exact hgap'
    | cons p pre =>
      simp only [List.cons_append, List.cons.injEq] at he
      have hn := (textOf_scans (h ks (by simp))).2.2
      rcases append_cons_cases he.2 with ⟨r, e1, -⟩ | ⟨q, e1, -⟩
      · rw [e1] at hn; simp at hn
      · exact ih (fun x hx => h x (by simp [hx])) _ _ e1

theorem linesText_semicolons {ls : List (List Kind)} (h : ∀ ks ∈ ls, ∀ k ∈ ks, Fine k ∧ Tidy k) : (linesText ls).count ';' = ls.flatten.count .semicolon := by
  induction ls with
  | nil => rfl
  | cons ks ls ih =>
    have h1 := textOf_semicolons (h ks (by simp))
    have h2 := ih fun x hx => h x (by simp [hx])
    rw [show linesText (ks :: ls) = '\n' :: (textOf ks ++ linesText ls) by simp [linesText], List.count_cons, List.count_append, h1, h2, List.flatten_cons,
      List.count_append]
    simp

/-! ### Sources -/

theorem dksh_program_then {lab : Str → Option Nat} {next : Kind × Nat} {rest : List (Kind × Nat)} {ops : List Op} {n : Nat} {o : Opts} (ht : o.type = some .compute)
    (hd : o.isDksh = true) (hn : next.2 ≠ n + 3) (hp : ∀ o, Program lab 0 o (next :: rest) ops o) :
    Program lab 0 {} (numbered n (dkshLines o []) ++ next :: rest) ops o := by
  obtain ⟨_, _, l, ⟨x, y, z⟩, s⟩ := o
  simp only at ht hd
  subst ht hd
  have h5 := hp { type := some .compute, isDksh := true, localMem := l, blockDims := (x, y, z), sharedMem := s }
  have h4 := Program.option (OptionText.local (o := { type := some .compute, isDksh := true, blockDims := (x, y, z), sharedMem := s }) (l := n + 3)
    (l1 := n + 3) (v := l.toNat)) (next := next) hn (by rw [ofInt_ofToNat]; exact h5)
  have h3 := Program.option (OptionText.shared (o := { type := some .compute, isDksh := true, blockDims := (x, y, z) }) (l := n + 2)
    (l1 := n + 2) (v := s.toNat)) (next := (.ident c!".local_memory", n + 3)) (by simp) (by rw [ofInt_ofToNat]; exact h4)
  have h2 := Program.option (OptionText.workgroup (o := { type := some .compute, isDksh := true }) (l := n + 1)
    (l1 := n + 1) (l2 := n + 1) (x := x.toNat) (y := y.toNat) (z := z.toNat)) (next := (.ident c!".shared_memory", n + 2)) (by simp)
    (by rw [ofInt_ofToNat, ofInt_ofToNat, ofInt_ofToNat]; exact h3)
  have h1 := Program.option (OptionText.dksh (o := {}) (l := n) (w := c!"compute") (p := .compute) rfl (by decide))
    (next := (.ident c!".workgroup_size", n + 1)) (by simp) h2
  simpa [numbered, dkshLines] using h1

theorem numbered_append (n : Nat) (A B : List (List Kind)) : numbered n (A ++ B) = numbered n A ++ numbered (n + A.length) B := by
  induction A generalizing n with
  | nil => rfl
  | cons a A ih => rw [List.cons_append, numbered, numbered, ih, List.append_assoc, List.length_cons, show n + 1 + A.length = n + (A.length + 1) by omega]

theorem numbered_kinds (n : Nat) (A : List (List Kind)) : (numbered n A).map Prod.fst = A.flatten := by
  induction A generalizing n with
  | nil => rfl
  | cons a A ih => simp [numbered, ih, Function.comp_def]

theorem dkshLines_tidy {o : Opts} {ks : List Kind} (h : ∀ k ∈ ks, Tidy k) : ∀ l ∈ dkshLines o ks, ∀ k ∈ l, Tidy k := by
  unfold dkshLines
  simp only [List.forall_mem_cons, List.not_mem_nil, false_imp_iff, implies_true, and_true]
  exact ⟨⟨by unfold Tidy; decide, by unfold Tidy; decide⟩, ⟨by unfold Tidy; decide, trivial, trivial, trivial⟩, ⟨by unfold Tidy; decide, trivial⟩,
    ⟨by unfold Tidy; decide, trivial⟩, h⟩

theorem dkshLines_splits (o : Opts) {ks : List Kind} {us : List (List Kind)} (h : Splits ks us) : Splits (dkshLines o ks).flatten us := by
  have h4 := Splits.option (w := c!".local_memory") (vs := [.imm o.localMem.toNat]) rfl (by rfl) h
  have h3 := Splits.option (w := c!".shared_memory") (vs := [.imm o.sharedMem.toNat]) rfl (by rfl) h4
  have h2 := Splits.option (w := c!".workgroup_size") (vs := [.imm o.blockDims.1.toNat, .imm o.blockDims.2.1.toNat, .imm o.blockDims.2.2.toNat]) rfl (by rfl) h3
  have h1 := Splits.option (w := c!".dksh") (vs := [.ident c!"compute"]) rfl (by decide) h2
  simpa [dkshLines] using h1

/-- The text of a container, with the label between the instructions. -/
def entryText (o : Opts) (a b : List Kind) : Str := linesText (dkshLines o a) ++ (['\n'] ++ (c!"main" ++ [':']) ++ linesText [b])

/-- A container whose entry point is at the beginning of a group or at the end of the code has a source in which no assertion fails. -/
theorem calm_container {o : Opts} (ht : o.type = some .compute) (hd : o.isDksh = true) {ops : List Op} (hne : ops ≠ []) (h3 : ops.length % 3 = 0)
    (htx : Texts (fun _ => none) 0 ops) (hl : (groups ops).length < 2 ^ 58) {k : Nat} (hk : 3 * k ≤ ops.length) :
    ∃ code lab ts us, '\x00' ∉ code ∧ IsLabelMap code lab ∧ lab c!"main" = some (32 * k + 8) ∧ Scans 0 code ts ∧ Program lab 0 {} ts ops o ∧
      Splits (ts.map Prod.fst) us ∧ (∀ u ∈ us, ¬ Unsound u) ∧ us.length = code.count ';' := by
  rw [groups_size] at hl
  have hsplit : ops.take (3 * k) ++ ops.drop (3 * k) = ops := List.take_append_drop _ _
  have hlen : (ops.take (3 * k)).length = 3 * k := by rw [List.length_take]; omega
  rw [← hsplit, texts_append, hlen] at htx
  obtain ⟨a, ua, a1, a2, a3, a4, a5, a6⟩ := calm_texts htx.1 (by
    intro j hj
    rw [hlen] at hj
    unfold addressOf
    omega)
  obtain ⟨b, ub, b1, b2, b3, b4, b5, b6⟩ := calm_texts htx.2 (by
    intro j hj
    rw [List.length_drop] at hj
    unfold addressOf
    omega)
  have fa : ∀ l ∈ dkshLines o a, ∀ k ∈ l, Fine k := dkshLines_fine fun k hk => (a1 k hk).1
  have fb : ∀ l ∈ [b], ∀ k ∈ l, Fine k := by simpa using fun k hk => (b1 k hk).1
  have ta := dkshLines_tidy (o := o) fun k hk => (a1 k hk).2
  have hsemi : a.count .semicolon = 3 * k := by rw [← a5, a6, hlen]
  have ca := linesText_semicolons (ls := dkshLines o a) fun l hl k hk => ⟨fa l hl k hk, ta l hl k hk⟩
  have ca' : (linesText (dkshLines o a)).count ';' = 3 * k := by
    rw [ca, ← hsemi]
    simp [dkshLines]
  have cb := linesText_semicolons (ls := [b]) (by simpa using b1)
  have hgap : Gap (linesText [b]) := linesText_gap _
  have hgap1 : Gap (['\n'] ++ (c!"main" ++ [':']) ++ linesText [b]) := by intro c hc; right; simpa using hc.symm
  have hgap2 : Gap (entryText o a b) := by intro c hc; right; simpa [entryText, linesText, dkshLines] using hc.symm
  obtain ⟨lab, hlab⟩ := exists_labels (entryText o a b)
  have hdef : ∀ {pre}, DefAt (entryText o a b) pre c!"main" ↔ ∃ q, pre = linesText (dkshLines o a) ++ q ∧ DefAt (['\n'] ++ (c!"main" ++ [':']) ++ linesText [b]) q c!"main" :=
    defAt_token hgap2 hgap1 (linesText_breaks fa hgap1)
  have hdef1 : ∀ {q}, DefAt (['\n'] ++ (c!"main" ++ [':']) ++ linesText [b]) q c!"main" ↔ _ := defAt_label (n := 1) (by omega) main_name hgap
  have hfirst : FirstDef (entryText o a b) (linesText (dkshLines o a) ++ ['\n']) c!"main" := by
    refine ⟨hdef.2 ⟨_, rfl, hdef1.2 (.inl ⟨rfl, rfl⟩)⟩, ?_⟩
    intro q hq
    obtain ⟨q, rfl, h⟩ := hdef.1 hq
    rcases hdef1.1 h with ⟨rfl, -⟩ | ⟨q', rfl, -⟩ <;> simp
  have hscan : Scans 0 (entryText o a b) (numbered 1 (dkshLines o a) ++ numbered 7 [b]) := by
    refine scans_lines_then fa hgap1 ?_
    refine scans_skip (.blank (by decide) (main_skipped hgap)) ?_
    exact scans_lines (l := 6) fb
  refine ⟨entryText o a b, lab, _, ua ++ ub, ?_, hlab, (hlab _ _).2 ⟨_, hfirst, ?_⟩, hscan, ?_, ?_, ?_, ?_⟩
  · unfold entryText
    simp only [List.mem_append, not_or]
    exact ⟨linesText_no_nul fa, ⟨by decide, by decide⟩, linesText_no_nul fb⟩
  · rw [List.count_append, ca']
    simp [addressOf]
    omega
  · have hp : ∀ o, Program lab 0 o (a.map (fun k => (k, 5)) ++ b.map (fun k => (k, 7))) ops o := by
      intro o
      have p1 := program_line 5 (program_more (lab' := lab) (by simp) (a2 o))
      have p2 := program_line 7 (program_more (lab' := lab) (by simp) (b2 o))
      have := Program.append p1 (by rw [hlen]; exact p2)
      rwa [hsplit] at this
    have hn : a.map (fun k => (k, 5)) ++ b.map (fun k => (k, 7)) ≠ [] := by
      intro he
      obtain ⟨rfl, rfl⟩ : a = [] ∧ b = [] := by simpa using he
      apply hne
      rw [← hsplit, List.append_eq_nil_iff, ← List.length_eq_zero_iff, ← List.length_eq_zero_iff, ← a6, ← b6, a5, b5]
      exact ⟨rfl, rfl⟩
    obtain ⟨next, rest, he⟩ := List.exists_cons_of_ne_nil hn
    have hx : next.2 ≠ 1 + 3 := by
      have : next ∈ a.map (fun k => (k, 5)) ++ b.map (fun k => (k, 7)) := by rw [he]; simp
      rcases List.mem_append.1 this with h | h <;> obtain ⟨_, -, rfl⟩ := List.mem_map.1 h <;> simp
    rw [he] at hp
    have := dksh_program_then ht hd hx hp
    rw [← he] at this
    simpa [numbered, dkshLines] using this
  · rw [List.map_append, numbered_kinds, numbered_kinds]
    exact Splits.append (dkshLines_splits o a3) (by simpa using b3)
  · intro u hu
    rcases List.mem_append.1 hu with hu | hu
    · exact a4 u hu
    · exact b4 u hu
  · unfold entryText
    rw [List.count_append, List.count_append, List.count_append, ca', cb, List.length_append, a5, b5, hsemi]
    simp

end Nxas
