import Verif.Lemmas.JsonDoc
import Verif.Spec.Session
/-! # C71: the text of saved files -/

namespace Verif

/-- C71. Every value `json` can write is read back, from the compact text of `save` and from the
indented text of `dump`. -/
theorem json_text_read (t : JTree) (ht : TreeOK False t) (ind : Option Nat) :
    parseText (treeText ind 0 t) = some t := by
  rw [parse_fill ht ind, fillTree_ok t ht]

/-- A tree with every kind of value, and a character beyond the basic plane. -/
example : TreeOK False (.obj [("a\n\"é😀", .arr [.int (-120), .float "1.5e-07", .null, .bool true]),
    ("", .obj [])]) := by
  refine .obj _ (by decide) (fun p hp => ?_)
  simp only [List.mem_cons, List.not_mem_nil, or_false] at hp
  rcases hp with rfl | rfl
  · refine .arr _ (fun t ht => ?_)
    simp only [List.mem_cons, List.not_mem_nil, or_false] at ht
    rcases ht with rfl | rfl | rfl | rfl
    · exact .int _
    · exact .float _ (.number [] ['1'] ['.', '5'] ['e', '-', '0', '7'] (.inl rfl)
        (.inr ⟨⟨by decide, by decide⟩, by decide⟩) (.inr ⟨['5'], ⟨by decide, by decide⟩, rfl⟩)
        (.inr ⟨'e', ['-'], ['0', '7'], .inl rfl, .inr (.inr rfl), ⟨by decide, by decide⟩, rfl⟩)
        (.inl (by decide)))
    · exact .null
    · exact .bool _
  · exact .obj _ (by decide) (fun p hp => by cases hp)

example : String.ofList (treeText none 0 (.obj [("a\n\"é😀", .arr [.int (-120), .null])])) =
    "{\"a\\n\\\"\\u00e9\\ud83d\\ude00\": [-120, null]}" := by decide +kernel

/-- C71. A crash while a dictionary is written leaves a text that is refused: no proper beginning
of the text of a dictionary can be read. -/
theorem json_prefix_refused (u : Prop) (d : List (String × JTree)) (ht : TreeOK u (.obj d))
    (ind : Option Nat) (p : List Char) (hp : p <+: treeText ind 0 (.obj d))
    (hne : p ≠ treeText ind 0 (.obj d)) : parseText p = none := parse_prefix ht ind hp hne

/-- Beginnings of numbers and lists of numbers, on the contrary, can be read as something else. -/
example : (parseText "12".toList).isSome ∧ (parseText "[12".toList).isSome = false ∧
    (parseText "123".toList).isSome := by decide +kernel

/-- C71. An exception while a dictionary is written leaves a text that is refused, and without an
exception the whole text is written. -/
theorem json_write (d : List (String × JTree)) (ht : TreeOK True (.obj d)) (s : List Char)
    (b : Bool) (h : writeTree (.obj d) = (s, b)) :
    (b = true → s = treeText none 0 (.obj d)) ∧ (b = false → parseText s = none) := by
  have hw := writeTree_writes (.obj d) 0
  rw [h] at hw
  refine ⟨hw.2, fun hb => ?_⟩
  subst hb
  have hs := writeObj_short (d := d) (by rw [h])
  rw [h] at hs
  exact parse_prefix ht none hw.1 (fun e => by rw [e] at hs; exact absurd hs (Nat.lt_irrefl _))

/-- C71. Without values unknown to `json` there is no exception. -/
theorem json_write_ok (t : JTree) (ht : TreeOK False t) :
    writeTree t = (treeText none 0 t, true) := by
  have h := writeTree_ok t ht
  have hw := (writeTree_writes t 0).2 h
  exact Prod.ext hw h

example : (writeTree (.obj [("a", .arr [.int 1, .unknown, .int 2])])).1 = "{\"a\": [1, ".toList ∧
    (writeTree (.obj [("a", .arr [.int 1, .unknown, .int 2])])).2 = false := by decide +kernel

/-! ### ASCII -/

/-- C71. Whatever the strings, the text consists of printable ASCII characters, and of line breaks
in its indented form: it does not depend on the encoding of the file, and a compact file is one
line. -/
theorem json_text_ascii (u : Prop) (t : JTree) (ht : TreeOK u t) (ind : Option Nat) (d : Nat) :
    ∀ c ∈ treeText ind d t, (32 ≤ c.toNat ∧ c.toNat ≤ 126) ∨ (c = '\n' ∧ ind ≠ none) :=
  ascii_tree u ind t d ht

example : treeText none 0 (.str "é\x7f\n") = "\"\\u00e9\\u007f\\n\"".toList := by decide +kernel

/-! ### Documents -/

/-- C71. A saved document, compact or indented, is read back as the commands that were written. -/
theorem doc_text_read (R : FloatRepr) (hR : R.OK) (cmds : List (String × JCmd))
    (hc : ∀ c ∈ cmds, FloatWord c.1.toList ∧ ∀ ps, c.2.params = some ps → (dkeys ps).Nodup)
    (ind : Option Nat) :
    fileOf R (treeText ind 0 (docTree R cmds)) = some (.doc (cmds.map Prod.snd)) := by
  unfold fileOf
  rw [json_text_read _ (docTree_ok hR hc) ind]
  have h1 : dget [("gsp_version", JTree.str "1.0"),
      ("commands", JTree.arr (cmds.map (fun c => cmdTree R c.1 c.2)))] "commands" =
      some (JTree.arr (cmds.map (fun c => cmdTree R c.1 c.2))) := by
    simp [dget]
  simp only [docTree, h1, treeCmds_docTree hR cmds, Option.map_some]

/-- C71. A crash at any point of saving leaves a file that cannot be loaded; loading it changes
nothing. -/
theorem save_crash (R : FloatRepr) (hR : R.OK) (cmds : List (String × JCmd))
    (hc : ∀ c ∈ cmds, FloatWord c.1.toList ∧ ∀ ps, c.2.params = some ps → (dkeys ps).Nodup)
    (p : List Char) (hp : p <+: docText R cmds) (hne : p ≠ docText R cmds) :
    ∃ f, fileOf R p = some f ∧ ∀ w q, loadQueue w f q = (w, .error .valueError) := by
  refine ⟨.invalid, ?_, fun w q => rfl⟩
  unfold fileOf
  rw [json_prefix_refused False _ (docTree_ok hR hc) none p hp hne]

/-- C71. A document without commands is not taken for an empty session: it is refused, and loading
it changes nothing. -/
theorem foreign_document (R : FloatRepr) (d : List (String × JTree)) (ht : TreeOK False (.obj d))
    (hd : "commands" ∉ d.map Prod.fst) (ind : Option Nat) :
    ∃ f, fileOf R (treeText ind 0 (.obj d)) = some f ∧
      ∀ w q, loadQueue w f q = (w, .error .keyError) := by
  refine ⟨.noCommands, ?_, fun w q => rfl⟩
  unfold fileOf
  rw [json_text_read _ ht ind]
  have : dget d "commands" = none := by
    cases h : dget d "commands" with
    | none => rfl
    | some v => exact absurd (List.mem_map.2 ⟨_, dget_mem h, rfl⟩) hd
  simp only [this]

example (R : FloatRepr) : ∃ f, fileOf R (treeText none 0 (.obj [("gsp_version", .str "1.0")])) = some f
    ∧ ∀ w q, loadQueue w f q = (w, .error .keyError) :=
  foreign_document R _ (.obj _ (by decide) (by simp [TreeOK.str])) (by decide) none

/-- C71. What `save` leaves on the disk (`saveQueue` of the session model) is what its text is read
as: the commands if they can all be encoded, and a file that is refused otherwise. -/
theorem save_text (R : FloatRepr) (hR : R.OK) (P : Prog) (ij : Codec) (fuel : Nat) (w w1 : World)
    (q : Option Nat) (old : File) (ps : List Payload)
    (hd : dumpLoop P fuel (pickQueue w q).1 (pickQueue w q).2 0 [] = some (w1, .ok ps))
    (stamps : List String) (hl : stamps.length = ps.length)
    (hst : ∀ s ∈ stamps, FloatWord s.toList) :
    ∃ f r, saveQueue P ij fuel w q old = some (w1, f, r) ∧
      fileOf R (writeTree (rawDocTree R ij w1 (stamps.zip ps))).1 = some f ∧
      (r = .ok () ↔ (writeTree (rawDocTree R ij w1 (stamps.zip ps))).2 = true) := by
  have hps : ∀ p ∈ ps, (dkeys p.params).Nodup :=
    dumpLoop_nodup hd (fun p hp => by cases hp)
  have hraw : TreeOK True (rawDocTree R ij w1 (stamps.zip ps)) := rawDoc_ok hR
    (fun p hp => ⟨hst _ (List.of_mem_zip hp).1, hps _ (List.of_mem_zip hp).2⟩)
  unfold saveQueue
  rw [hd]
  dsimp only
  cases he : encodeAll ij w1 ps with
  | error e =>
    refine ⟨_, _, rfl, ?_, ?_⟩
    · have h2 := rawDoc_error (R := R) hl he
      have : parseText (writeTree (rawDocTree R ij w1 (stamps.zip ps))).1 = none :=
        (json_write _ hraw _ _ rfl).2 h2
      unfold fileOf
      rw [this]
    · rw [rawDoc_error (R := R) hl he]
      simp
  | ok l =>
    have hraw2 := rawDoc_encoded (R := R) hl he
    have hkeys : ∀ c ∈ stamps.zip l, FloatWord c.1.toList ∧
        ∀ qs, c.2.params = some qs → (dkeys qs).Nodup := by
      intro c hc
      refine ⟨hst _ (List.of_mem_zip hc).1, fun qs hq => ?_⟩
      obtain ⟨p, hp, hk⟩ := encodeAll_keys he c.2 (List.of_mem_zip hc).2 qs hq
      rw [hk]
      exact hps p hp
    have hlen : stamps.length = l.length := by rw [hl, encodeAll_length he]
    refine ⟨_, _, rfl, ?_, ?_⟩
    · rw [hraw2, json_write_ok _ (docTree_ok hR hkeys)]
      dsimp only
      rw [doc_text_read R hR _ hkeys none]
      rw [List.map_snd_zip (by omega)]
    · rw [hraw2, json_write_ok _ (docTree_ok hR hkeys)]
      simp

/-- Floats whose text is a fraction: numbers are modelled by integers, so any text of the right form
that can be told from the others will do. -/
def plainFloats : FloatRepr where
  text := fun n => String.ofList (intText n ++ ['.', '0'])
  read := fun s => match scanNum (s.toList.dropLast.dropLast) with
    | some (.int n, []) => some n
    | _ => none

theorem plainFloats_ok : plainFloats.OK where
  word := by
    intro n
    have key : ∀ sg, (sg = [] ∨ sg = ['-']) → ∀ m, FloatWord (sg ++ (decimal m ++ (['.', '0'] ++ []))) :=
      fun sg hs m => .number sg (decimal m) ['.', '0'] [] hs (decimal_int m)
        (.inr ⟨['0'], ⟨by decide, by decide⟩, rfl⟩) (.inl rfl) (.inl (by decide))
    simp only [plainFloats, String.toList_ofList]
    cases n with
    | ofNat n => simpa [intText] using key [] (.inl rfl) n
    | negSucc n => simpa [intText] using key ['-'] (.inr rfl) (n + 1)
  read := by
    intro n
    have hd : (intText n ++ ['.', '0']).dropLast.dropLast = intText n := by
      rw [show intText n ++ ['.', '0'] = (intText n ++ ['.']) ++ ['0'] by simp,
        List.dropLast_concat, List.dropLast_concat]
    have hs : scanNum (intText n) = some (.int n, []) := by
      have key : ∀ sg, (sg = [] ∨ sg = ['-']) → ∀ m, scanNum (sg ++ decimal m) =
          some (.int (if sg = [] then (m : Int) else -(m : Int)), []) := by
        intro sg hsg m
        have := scanNum_text (rest := []) hsg (decimal_int m) (.inl rfl) (.inl rfl)
          (fun c hc => by cases hc)
        simp only [List.append_nil, and_self, if_true] at this
        rw [this, decimal, Nat.ofDigitChars_ten_toDigits]
      cases n with
      | ofNat n => exact key [] (.inl rfl) n
      | negSucc n =>
        have := key ['-'] (.inr rfl) (n + 1)
        rw [if_neg (by simp)] at this
        exact this
    simp only [plainFloats, String.toList_ofList, hd, hs]

/-- A session, from its commands to the text and back. -/
example :
    let w := runOps demo World.fresh [.create "Foo" [.int 7] [] false,
      .call 0 "set_value" [.int 3, .str "é"] [] false]
    ∃ w1 ps, dumpLoop demo 9 w 0 0 [] = some (w1, .ok ps) ∧ ps.length = 2 ∧
      fileOf plainFloats (writeTree (rawDocTree plainFloats (fun _ _ => none) w1
        (["1.5", "2.5"].zip ps))).1 =
      some (.doc [⟨some "Foo/__init__", 1, some [("id", .int 1), ("value", .int 7)]⟩,
        ⟨some "Foo/set_value", 2, some [("id", .int 1), ("value", .int 3), ("unit", .str "é")]⟩]) :=
  ⟨_, _, rfl, rfl, by decide +kernel⟩

/-- A parameter that `json` cannot write: the file ends before it. -/
example : (writeTree (rawDocTree plainFloats (fun _ _ => none) World.fresh
    [("1.5", ⟨"A/b", 1, [("id", .int 1), ("x", .inst "T" 0), ("y", .int 2)]⟩)])).1 =
    ("{\"gsp_version\": \"1.0\", \"commands\": [{\"method\": \"A/b\", \"id\": 1, " ++
      "\"timestamp\": 1.5, \"parameters\": {\"id\": 1, \"x\": ").toList := by decide +kernel

end Verif
