import Verif.Lemmas.Disasm
import Verif.Props.Unambiguous
import Verif.Props.Link
/-
The text of tokens, what the check of the disassembler amounts to, and why its result is assembled to the image it is made from.
-/

namespace Nxas

open Spec

/-! ### Text -/

theorem pointed_text {ds : Str} (hds : ∀ c ∈ ds, decimal c) (hlen : 149 < ds.length) (b : BitVec 32)
    (hv : ∀ ip fp : Str, ds = ip ++ fp → fp.length = 149 → f32OfRat (2 ^ 31 ≤ b.toNat) (numeral 10 (ip ++ fp)) (10 ^ fp.length) = b) :
    lineAfter ((if 2 ^ 31 ≤ b.toNat then ['-'] else []) ++ pointed ds) = 0 ∧ '\x00' ∉ (if 2 ^ 31 ≤ b.toNat then ['-'] else []) ++ pointed ds ∧
      ∀ rest, Gap rest → Lexeme ((if 2 ^ 31 ≤ b.toNat then ['-'] else []) ++ pointed ds) rest (.fimm b) := by
  unfold pointed
  have hfp : (ds.drop (ds.length - 149)).length = 149 := by rw [List.length_drop]; omega
  have hsplit := (List.take_append_drop (ds.length - 149) ds).symm
  generalize ds.drop (ds.length - 149) = fp at hfp hsplit ⊢
  generalize ds.take (ds.length - 149) = ip at hsplit ⊢
  have hip : ip ≠ [] := by
    rintro rfl
    rw [hsplit] at hlen
    simp [hfp] at hlen
  have h1 : ∀ c ∈ ip, decimal c := fun c hc => hds c (by rw [hsplit]; exact List.mem_append.2 (.inl hc))
  have h2 : ∀ c ∈ fp, decimal c := fun c hc => hds c (by rw [hsplit]; exact List.mem_append.2 (.inr hc))
  have hval := hv ip fp hsplit hfp
  obtain ⟨sg, hs', hsg, q1, q2⟩ : ∃ sg, (if 2 ^ 31 ≤ b.toNat then ['-'] else []) = sg ∧ Sign sg (2 ^ 31 ≤ b.toNat) ∧ lineAfter sg = 0 ∧ '\x00' ∉ sg := by
    by_cases hs : 2 ^ 31 ≤ b.toNat
    · exact ⟨['-'], if_pos hs, by rw [decide_eq_true hs]; exact .minus, by decide, by decide⟩
    · exact ⟨[], if_neg hs, by rw [decide_eq_false hs]; exact .none, by decide, by decide⟩
  rw [hs']
  have d1 := decimal_plain h1
  have d2 := decimal_plain h2
  refine ⟨?_, ?_, fun rest hr => ?_⟩
  · rw [lineAfter_append, lineAfter_append, show '.' :: fp = ['.'] ++ fp from rfl, lineAfter_append, q1, d1.1, d2.1]
    decide
  · simp only [List.mem_append, List.mem_cons, not_or]
    exact ⟨q2, d1.2, by decide, d2.2⟩
  · have := Lexeme.float (rest := rest) hsg hip h1 h2 hr.ends
    rw [hval] at this
    rwa [← List.append_assoc]

theorem fractionDigits_value (n : Nat) : numeral 10 (fractionDigits n) = sig 23 n * 5 ^ 149 := by
  unfold fractionDigits
  rw [numeral_zeros, numeral_toDigits (by decide) (by decide)]

theorem float_text (b : BitVec 32) (h : b.toNat % 2 ^ 31 ≤ 0x7F800000) :
    lineAfter (Kind.fimm b).text = 0 ∧ '\x00' ∉ (Kind.fimm b).text ∧ ∀ rest, Gap rest → Lexeme (Kind.fimm b).text rest (.fimm b) := by
  rw [show (Kind.fimm b).text = (if 2 ^ 31 ≤ b.toNat then ['-'] else []) ++ pointed (fractionDigits (b.toNat % 2 ^ 31)) from Kind.text.eq_6 b]
  generalize hn : b.toNat % 2 ^ 31 = n at h
  refine pointed_text ?_ ?_ b ?_
  · intro c hc
    rcases List.mem_append.1 hc with hc | hc
    · rw [List.eq_of_mem_replicate hc]; unfold decimal; decide
    · exact toDigits_decimal' _ c hc
  · unfold fractionDigits
    rw [List.length_append, List.length_replicate]
    omega
  · intro ip fp hsplit hfp
    unfold f32OfRat
    rw [← hsplit, hfp, fractionDigits_value, roundRat_exact h]
    apply BitVec.eq_of_toNat_eq
    rw [BitVec.toNat_ofNat, ← hn]
    have := b.isLt
    simp only [decide_eq_true_eq]
    split <;> omega

theorem kind_text {k : Kind} (h : Writable k) :
    lineAfter k.text = height k ∧ '\x00' ∉ k.text ∧ ∀ rest, Gap rest → Lexeme k.text rest k := by
  have hop : ∀ {c : Char} {k : Kind}, (c, k) ∈ operators → height k = 0 →
      lineAfter [c] = height k ∧ '\x00' ∉ [c] ∧ ∀ rest, Gap rest → Lexeme [c] rest k := by
    intro c k hm hk
    refine ⟨?_, ?_, fun rest hr => .operator hm fun _ => hr.noDigit⟩
    · rw [hk]
      have : ∀ x ∈ operators, lineAfter [x.1] = 0 := by decide
      exact this _ hm
    · have : ∀ x ∈ operators, '\x00' ∉ [x.1] := by decide
      exact this _ hm
  cases k with
  | none => exact h.elim
  | ident s => exact ⟨rfl, h.2.2, fun rest hr => .word (h.1.change hr.ends) h.2.1⟩
  | reg n =>
    unfold Writable at h
    unfold Kind.text
    by_cases hn : n = 255
    · subst hn
      exact ⟨by decide, by decide, fun rest hr => .zero hr.ends⟩
    · have hd := toDigits_decimal' n
      have hp := decimal_plain hd
      simp only [hn, if_false]
      refine ⟨?_, ?_, fun rest hr => ?_⟩
      · rw [show 'R' :: Nat.toDigits 10 n = ['R'] ++ Nat.toDigits 10 n from rfl, lineAfter_append, hp.1]; rfl
      · simp only [List.mem_cons, not_or]
        exact ⟨by decide, hp.2⟩
      · have hv := numeral_toDigits (b := 10) (by decide) (by decide) n
        have := Lexeme.reg (rest := rest) Nat.toDigits_ne_nil hd (by rw [hv]; omega) hr.ends
        rwa [hv] at this
  | pred i n =>
    unfold Writable at h
    unfold Kind.text
    obtain ⟨hp, q1, q2⟩ : PredPrefix (if n then c!"!P" else c!"P") n ∧ lineAfter (if n then c!"!P" else c!"P") = 0 ∧
        '\x00' ∉ (if n then c!"!P" else c!"P") := by
      cases n
      · exact ⟨.pos (.inl rfl), by decide, by decide⟩
      · exact ⟨.neg (.inl rfl), by decide, by decide⟩
    obtain ⟨hc, q3, q4⟩ : PredName (if i = 7 then 'T' else i.digitChar) i ∧ lineAfter [if i = 7 then 'T' else i.digitChar] = 0 ∧
        '\x00' ∉ [if i = 7 then 'T' else i.digitChar] := by
      by_cases hi : i = 7
      · subst hi; exact ⟨.true (.inl rfl), by decide, by decide⟩
      · have : ∀ j < 7, (('0' ≤ j.digitChar ∧ j.digitChar ≤ '6') ∧ digit j.digitChar = j) ∧ lineAfter [j.digitChar] = 0 ∧
            '\x00' ∉ [j.digitChar] := by decide
        obtain ⟨⟨h1, h4⟩, h2, h3⟩ := this i (by omega)
        simp only [hi, if_false]
        refine ⟨?_, h2, h3⟩
        have h5 := PredName.index h1
        rwa [h4] at h5
    refine ⟨?_, ?_, fun rest hr => .pred hp hc hr.ends⟩
    · rw [lineAfter_append, q1, q3]; rfl
    · rw [List.mem_append, not_or]; exact ⟨q2, q4⟩
  | imm v =>
    obtain ⟨h1, h2⟩ := h
    unfold Kind.text
    have hd := toDigits_decimal' v.natAbs
    have hp := decimal_plain hd
    obtain ⟨hsg, q1, q2⟩ : Sign (if v < 0 then ['-'] else []) (decide (v < 0)) ∧ lineAfter (if v < 0 then ['-'] else []) = 0 ∧
        '\x00' ∉ (if v < 0 then ['-'] else []) := by
      by_cases hs : v < 0
      · simp only [hs, if_true, decide_true]; exact ⟨.minus, by decide, by decide⟩
      · simp only [hs, if_false, decide_false]; exact ⟨.none, by decide, by decide⟩
    refine ⟨?_, ?_, fun rest hr => ?_⟩
    · rw [lineAfter_append, q1, hp.1]; rfl
    · rw [List.mem_append, not_or]; exact ⟨q2, hp.2⟩
    · have := Lexeme.int (rest := rest) hsg (intLit_dec v.natAbs) hr.ends (fun c hc => by rcases hr c hc with rfl | rfl <;> decide)
      have he : saturated (decide (v < 0)) v.natAbs = v := by
        unfold saturated
        simp only [decide_eq_true_eq]
        split <;> omega
      rwa [he] at this
  | fimm b => exact float_text b h
  | plus => exact hop (c := '+') (by decide) rfl
  | minus => exact hop (c := '-') (by decide) rfl
  | tilde => exact hop (c := '~') (by decide) rfl
  | vbar => exact hop (c := '|') (by decide) rfl
  | lbracket => exact hop (c := '[') (by decide) rfl
  | rbracket => exact hop (c := ']') (by decide) rfl
  | «at» => exact hop (c := '@') (by decide) rfl
  | semicolon => exact hop (c := ';') (by decide) rfl
  | comma => exact hop (c := ',') (by decide) rfl

/-- Tokens that can be written in one line. -/
def Fine (k : Kind) : Prop := Writable k ∧ height k = 0

theorem textOf_gap (ks : List Kind) : Gap (textOf ks) := by
  intro c hc
  cases ks with
  | nil => simp [textOf] at hc
  | cons k ks =>
    simp only [textOf, List.flatMap_cons, List.cons_append, List.head?_cons, Option.some.injEq] at hc
    exact .inl hc.symm

theorem textOf_append (ks ks' : List Kind) : textOf (ks ++ ks') = textOf ks ++ textOf ks' := by
  simp [textOf]

theorem textOf_scans {ks : List Kind} (h : ∀ k ∈ ks, Fine k) :
    Scans 0 (textOf ks) (ks.map fun k => (k, 0)) ∧ '\x00' ∉ textOf ks ∧ '\n' ∉ textOf ks := by
  induction ks with
  | nil => exact ⟨.done .nil, by simp [textOf], by simp [textOf]⟩
  | cons k ks ih =>
    obtain ⟨h1, h2, h3⟩ := ih fun k hk => h k (by simp [hk])
    obtain ⟨q1, q2, q3⟩ := kind_text (h k (by simp)).1
    have hk := (h k (by simp)).2
    refine ⟨?_, ?_, ?_⟩
    · have := scans_lead (l := 0) (l' := 0) (Nat.le_refl _) (q3 _ (textOf_gap ks)) q1 (ts := ks.map fun k => (k, 0)) (by rw [hk]; exact h1)
      simpa [lead, textOf] using this
    · simp only [textOf, List.flatMap_cons, List.cons_append, List.mem_cons, List.mem_append, not_or]
      exact ⟨by decide, q2, h2⟩
    · simp only [textOf, List.flatMap_cons, List.cons_append, List.mem_cons, List.mem_append, not_or]
      refine ⟨by decide, ?_, h3⟩
      rw [hk] at q1
      exact List.count_eq_zero.1 q1

theorem fine_of_scans {ks : List Kind} (hz : '\x00' ∉ textOf ks) (hn : '\n' ∉ textOf ks) (h : Scans 0 (textOf ks) (ks.map fun k => (k, 0))) :
    ∀ k ∈ ks, Fine k := by
  have : ∀ l (ks : List Kind), Written l (ks.map fun k => (k, 0)) → ∀ k ∈ ks, Writable k := by
    intro l ks
    induction ks generalizing l with
    | nil => simp
    | cons x ks ih =>
      rintro ⟨-, h1, h2⟩ k hk
      rcases List.mem_cons.1 hk with rfl | hk
      · exact h1
      · exact ih _ h2 k hk
  intro k hk
  have hw := this 0 ks (h.written hz) k hk
  refine ⟨hw, ?_⟩
  rw [← (kind_text hw).1]
  refine List.count_eq_zero.2 fun hc => hn ?_
  exact List.mem_flatMap.2 ⟨k, hk, by simp [hc]⟩

/-! ### The check -/

theorem reads_prefix {c c' : Cur} {as bs : List Token} (h : ReadsT c as c') (hl : Lexes c bs) : ∃ bs', bs = as ++ bs' := by
  induction h generalizing bs with
  | nil => exact ⟨bs, rfl⟩
  | cons h hk _ ih =>
    cases bs with
    | nil =>
      obtain ⟨c2, h0, t, c'', h1, h2⟩ := hl
      cases h0
      rw [h] at h1
      cases h1
      exact absurd h2 hk
    | cons b bs =>
      obtain ⟨c2, h1, -, h2⟩ := Lexes.cons_iff.1 hl
      rw [h] at h1
      cases h1
      obtain ⟨bs', rfl⟩ := ih h2
      exact ⟨bs', rfl⟩

theorem lexes_lexAll {c : Cur} {ts : List Token} (h : Lexes c ts) : ∀ n, ts.length < n → lexAll n c = some (ts.map Token.pair) := by
  induction ts generalizing c with
  | nil =>
    intro n hn
    obtain ⟨n, rfl⟩ : ∃ m, n = m + 1 := ⟨n - 1, by simp at hn; omega⟩
    obtain ⟨c', h0, t, c'', h1, h2⟩ := h
    cases h0
    simp [lexAll, h1, h2]
  | cons t ts ih =>
    intro n hn
    obtain ⟨n, rfl⟩ : ∃ m, n = m + 1 := ⟨n - 1, by simp at hn; omega⟩
    obtain ⟨c1, h1, h2, h3⟩ := Lexes.cons_iff.1 h
    simp only [List.length_cons] at hn
    simp [lexAll, h1, h2, ih h3 n (by omega)]

theorem alignPc_address (i : Nat) : alignPc (addressOf i) = addressOf i := by
  unfold alignPc addressOf
  split
  · omega
  · rfl

/-- The tokens, without labels. -/
abbrev bareEnv (i : Nat) : Env := ⟨fun _ => none, addressOf i⟩

theorem assembles_iff {i : Nat} {op : Op} {ks : List Kind} :
    assembles (addressOf i) op ks = true ↔ (∀ k ∈ ks, Fine k) ∧ InstrText (bareEnv i) (ks ++ [.semicolon]) op := by
  have henv : (⟨Labels.find [], alignPc (addressOf i)⟩ : Env) = bareEnv i := by rw [alignPc_address]; rfl
  constructor
  · intro h
    unfold assembles at h
    simp only [Bool.and_eq_true, Bool.not_eq_eq_eq_not, Bool.not_true, List.contains_eq_mem, decide_eq_false_iff_not, beq_iff_eq] at h
    obtain ⟨⟨⟨⟨⟨h1, h2⟩, h3⟩, h4⟩, h5⟩, h6⟩ := h
    have hsc := lexAll_scans h3 h5
    refine ⟨fun k hk => fine_of_scans h3 h4 hsc k (by simp [hk]), ?_⟩
    generalize textOf (ks ++ [.semicolon]) = T at hsc h6 h3
    obtain ⟨toks, hl, htok⟩ := (scans_iff (c := ⟨T, 0, 0⟩) h3).1 hsc
    have hkinds : toks.map Token.kind = ks ++ [.semicolon] := by
      rw [← map_pair_kind, ← htok, List.map_map]
      simp [Function.comp_def]
    cases toks with
    | nil => simp at hkinds
    | cons t toks =>
      obtain ⟨c1, ht, -, -⟩ := Lexes.cons_iff.1 hl
      split at h6
      · rename_i s hs
        rw [beq_iff_eq] at h6
        have hno : t.isOption = false := by
          cases ks with
          | nil =>
            simp only [List.map_cons, List.nil_append, List.cons.injEq] at hkinds
            simp [Token.isOption, hkinds.1]
          | cons k ks =>
            simp only [List.map_cons, List.cons_append, List.cons.injEq] at hkinds
            simp only [List.head?_cons, Option.any_some] at h2
            rw [← hkinds.1] at h2
            exact h2
        obtain ⟨ts, r1, r2, -⟩ := insn_reads (x := ⟨⟨T, 0, 0⟩, [], addressOf i, {}⟩) ht hno hs
        dsimp only at r2
        rw [henv, h6] at r2
        obtain ⟨rest, hrest⟩ := reads_prefix (.cons ht (by
          obtain ⟨c1, -, h, -⟩ := Lexes.cons_iff.1 hl
          exact h) r1) hl
        rw [hrest, List.map_append] at hkinds
        obtain ⟨ks', q1, q2⟩ := instr_semicolon r2
        rw [q1] at hkinds r2
        have : ks' = ks := by
          rw [List.append_assoc] at hkinds
          rcases List.append_eq_append_iff.1 hkinds with ⟨x, h7, h8⟩ | ⟨x, h7, h8⟩
          · cases x with
            | nil => simpa using h7.symm
            | cons y x =>
              rw [List.singleton_append, List.cons_append, List.cons.injEq] at h8
              rw [h7, ← h8.1] at h1
              simp at h1
          · cases x with
            | nil => simpa using h7
            | cons y x =>
              rw [List.cons_append, List.cons.injEq] at h8
              rw [h7, ← h8.1] at q2
              simp at q2
        rw [this] at r2
        exact r2
      · simp at h6
  · rintro ⟨hf, h⟩
    have hf' : ∀ k ∈ ks ++ [Kind.semicolon], Fine k := by
      intro k hk
      rcases List.mem_append.1 hk with hk | hk
      · exact hf k hk
      · rw [List.mem_singleton.1 hk]; exact ⟨trivial, rfl⟩
    obtain ⟨h1, h2, h3⟩ := textOf_scans hf'
    obtain ⟨toks, hl, htok⟩ := (scans_iff (c := ⟨textOf (ks ++ [.semicolon]), 0, 0⟩) h2).1 h1
    have hkinds : toks.map Token.kind = ks ++ [.semicolon] := by
      rw [← map_pair_kind, ← htok, List.map_map]
      simp [Function.comp_def]
    have hlen : toks.length = ks.length + 1 := by
      have := congrArg List.length hkinds
      simpa using this
    have hsemi : Kind.semicolon ∉ ks := by
      obtain ⟨ks', q1, q2⟩ := instr_semicolon h
      rw [List.append_left_inj] at q1
      rwa [q1]
    cases toks with
    | nil => simp at hlen
    | cons t toks =>
      obtain ⟨c1, ht, -, c, hr, -⟩ := Lexes.cons_iff.1 hl
      rw [← hkinds] at h
      have hno := h.not_option
      obtain ⟨t', ht'⟩ := insn_accepts (x := ⟨⟨textOf (ks ++ [.semicolon]), 0, 0⟩, [], addressOf i, {}⟩) (op := op) ht hr (by rw [henv]; exact h)
      unfold assembles
      simp only [Bool.and_eq_true, Bool.not_eq_eq_eq_not, Bool.not_true, List.contains_eq_mem, decide_eq_false_iff_not, beq_iff_eq]
      refine ⟨⟨⟨⟨⟨hsemi, ?_⟩, h2⟩, h3⟩, ?_⟩, ?_⟩
      · cases ks with
        | nil => rfl
        | cons k ks =>
          simp only [List.map_cons, List.cons_append, List.cons.injEq] at hkinds
          simp only [List.head?_cons, Option.any_some]
          rw [← hkinds.1]
          exact hno
      · rw [lexes_lexAll hl _ (by rw [hlen]; omega), htok]
      · rw [ht']
        simp

/-! ### Search -/

theorem search_sound {check : List Kind → Bool} {tss : List (List (List Kind))} {acc r : List Kind} (h : search check tss acc = some r) :
    check r = true := by
  induction tss generalizing acc with
  | nil =>
    simp only [search] at h
    split at h
    · cases h; assumption
    · simp at h
  | cons ts tss ih =>
    simp only [search] at h
    obtain ⟨t, -, ht⟩ := List.exists_of_findSome?_eq_some h
    exact ih ht

theorem search_complete {check : List Kind → Bool} {tss : List (List (List Kind))} {kss : List (List Kind)}
    (h : List.Forall₂ (fun ts ks => ks ∈ ts) tss kss) {acc : List Kind} (hc : check (acc ++ kss.flatten) = true) :
    (search check tss acc).isSome = true := by
  induction h generalizing acc with
  | nil =>
    rw [List.flatten_nil, List.append_nil] at hc
    simp [search, hc]
  | @cons ts ks tss kss h _ ih =>
    simp only [search]
    rw [List.findSome?_isSome_iff]
    refine ⟨ks, h, ih ?_⟩
    rw [List.append_assoc]
    exact hc

theorem decode_sound {pc : Nat} {op : Op} {ks : List Kind} (h : decode pc op = some ks) : assembles pc op ks = true := by
  unfold decode at h
  obtain ⟨row, -, h⟩ := List.exists_of_findSome?_eq_some h
  split at h
  · obtain ⟨x, hx, rfl⟩ := Option.map_eq_some_iff.1 h
    have := search_sound hx
    exact this
  · simp at h

/-! ### Programs -/

theorem slot_opOf {v : BitVec 64} {s : Nat} (h : s < 2 ^ 49) : slot (some (opOf v s)) = s := by
  simp only [slot, opOf, BitVec.toNat_ofNat]
  omega

theorem decodeAt_sound {i : Nat} {v : BitVec 64} {s : Nat} {ks : List Kind} (h : decodeAt i v s = some ks) :
    (∀ k ∈ ks, Fine k) ∧ InstrText (bareEnv i) ks (opOf v s) := by
  unfold decodeAt at h
  obtain ⟨ks, hd, rfl⟩ := Option.map_eq_some_iff.1 h
  obtain ⟨h1, h2⟩ := assembles_iff.1 (decode_sound hd)
  refine ⟨?_, h2⟩
  intro k hk
  rcases List.mem_append.1 hk with hk | hk
  · exact h1 k hk
  · rw [List.mem_singleton.1 hk]; exact ⟨trivial, rfl⟩

theorem program_one {lab : Str → Option Nat} {i : Nat} {o o' : Opts} {ks ks' : List Kind} {op : Op} {ops : List Op}
    (h : InstrText ⟨lab, addressOf i⟩ ks op) (hr : Program lab (i + 1) o (ks'.map fun k => (k, 0)) ops o') :
    Program lab i o ((ks ++ ks').map fun k => (k, 0)) (op :: ops) o' := by
  rw [List.map_append]
  refine .insn ?_ hr
  rw [List.map_map]
  simpa [Function.comp_def] using h

theorem control_parts (c : BitVec 64) : BitVec.ofNat 64 (c.toNat % 2 ^ 21 + c.toNat / 2 ^ 21 % 2 ^ 21 * 2 ^ 21 + c.toNat / 2 ^ 42 * 2 ^ 42) = c := by
  apply BitVec.eq_of_toNat_eq
  rw [BitVec.toNat_ofNat]
  have := c.isLt
  omega

theorem decodeAll_sound : ∀ {i : Nat} {ws : List (BitVec 64)} {ks : List Kind}, decodeAll i ws = some ks →
    (∀ k ∈ ks, Fine k) ∧ ∃ ops, groups ops = ws ∧ ∀ o, Program (fun _ => none) i o (ks.map fun k => (k, 0)) ops o
  | i, [], ks, h => by
    simp only [decodeAll, Option.some.injEq] at h
    subst h
    exact ⟨by simp, [], rfl, fun o => .done⟩
  | i, c :: x :: y :: z :: rest, ks, h => by
    simp only [decodeAll, Option.bind_eq_bind, Option.pure_def, Option.bind_eq_some_iff, Option.some.injEq] at h
    obtain ⟨k1, h1, k2, h2, k3, h3, k4, h4, rfl⟩ := h
    obtain ⟨f1, t1⟩ := decodeAt_sound h1
    obtain ⟨f2, t2⟩ := decodeAt_sound h2
    obtain ⟨f3, t3⟩ := decodeAt_sound h3
    obtain ⟨f4, ops, hg, hp⟩ := decodeAll_sound h4
    refine ⟨?_, opOf x (c.toNat % 2 ^ 21) :: opOf y (c.toNat / 2 ^ 21 % 2 ^ 21) :: opOf z (c.toNat / 2 ^ 42) :: ops, ?_, fun o =>
      program_one t1 (program_one t2 (program_one t3 (hp o)))⟩
    · intro k hk
      simp only [List.mem_append] at hk
      rcases hk with hk | hk | hk | hk
      · exact f1 k hk
      · exact f2 k hk
      · exact f3 k hk
      · exact f4 k hk
    · rw [groups, hg]
      unfold Spec.control
      have := c.isLt
      rw [slot_opOf (by omega), slot_opOf (by omega), slot_opOf (by omega), control_parts]
      rfl
  | i, [_], ks, h => by simp [decodeAll] at h
  | i, [_, _], ks, h => by simp [decodeAll] at h
  | i, [_, _, _], ks, h => by simp [decodeAll] at h

theorem no_labels {t : Str} (hg : Gap t) (hn : '\n' ∉ t) : IsLabelMap t fun _ => none := by
  intro name a
  constructor
  · simp
  · rintro ⟨pre, ⟨hd, -⟩, -⟩
    obtain ⟨-, q, rest, -, rfl⟩ := (defAt_iff hg).1 hd
    simp at hn

/-- What the disassembler gives is assembled to the words it is made from. -/
theorem disassemble_sound {ws : List (BitVec 64)} {t : Str} (h : disassemble ws = some t) : assemble false t = .ok ws := by
  unfold disassemble at h
  obtain ⟨ks, hk, rfl⟩ := Option.map_eq_some_iff.1 h
  obtain ⟨hf, ops, rfl, hp⟩ := decodeAll_sound hk
  obtain ⟨h1, h2, h3⟩ := textOf_scans hf
  rw [assemble_iff, visible_self h2]
  exact ⟨_, _, ops, {}, no_labels (textOf_gap ks) h3, h1, hp {}, .raw rfl (.inl rfl)⟩

end Nxas
