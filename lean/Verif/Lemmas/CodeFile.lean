import Verif.Lemmas.CodeStmt
/-! Reading blocks and files. -/
namespace Verif.Spec.Code
open Verif Verif.Spec

/-! ### Manual bindings -/

theorem space_flat (s : Str) (h : s.all isSpace = true) (a : Nat) : Flat a s a := by
  induction s with
  | nil => rfl
  | cons c s ih =>
    simp only [List.all_cons, Bool.and_eq_true] at h
    have : Flat a [c] a := by
      have hc := h.1
      simp only [isSpace, Bool.or_eq_true, decide_eq_true_eq] at hc
      rcases hc with (rfl | rfl) | rfl <;> rfl
    exact this.append (ih h.2)

theorem space_drop (s t : Str) (h : s.all isSpace = true) :
    (s ++ t).dropWhile isSpace = t.dropWhile isSpace := by
  induction s with
  | nil => rfl
  | cons c s ih =>
    simp only [List.all_cons, Bool.and_eq_true] at h
    simp [List.dropWhile, h.1, ih h.2]

theorem blockOf_eq (block space : Str) (h : space.all isSpace = true) :
    blockOf ('{' :: block ++ '}' :: space) = block := by
  unfold blockOf
  have h' : space.reverse.all isSpace = true := by simpa using h
  have : ((('{' :: block ++ '}' :: space).drop 1).reverse) = space.reverse ++ '}' :: block.reverse := by
    simp
  rw [this, space_drop _ _ h', List.dropWhile]
  simp [isSpace]

/-- Text that is one item, and the item. -/
def Item (file : Bool) (text x : Str) : Prop :=
  ∀ t, itemsLoop file { depth := 1 } [] (text ++ t) = (itemsLoop file { depth := 1 } [] t).map (x :: ·)

theorem Item.sentence {x s : Str} (h : Sentence x) (hs : s.all isSpace = true) :
    Item false (x ++ ';' :: s) x := by
  intro t
  rw [List.append_assoc, List.cons_append, statements_sentence h, items_space _ _ _ hs]

theorem items_texts {α : Type} {file : Bool} (f g : α → Str) (l : List α)
    (h : ∀ a ∈ l, Item file (f a) (g a)) (t : Str) :
    itemsLoop file { depth := 1 } [] (l.flatMap f ++ t) =
      (itemsLoop file { depth := 1 } [] t).map (l.map g ++ ·) := by
  induction l with
  | nil => simp
  | cons a l ih =>
    rw [List.flatMap_cons, List.append_assoc, h a (by simp), ih fun b hb => h b (by simp [hb])]
    cases itemsLoop file { depth := 1 } [] t <;> rfl

/-- How manual bindings are read. -/
theorem manual_item {m : ManualInfo} (h : ManualInfo.Clean m) :
    ∃ x, Item false m.emit x ∧ readManual x = some (m.context, blockOf m.body) ∧ Nested m.emit ∧
      ∃ c t, x = c :: t ∧ (c = '{' ∨ c = '[') := by
  obtain ⟨⟨block, space, hb, hs, hi⟩, hn⟩ := h
  have hblock := Nested.of_inside hi
  have hf : Flat 0 ('{' :: block ++ ['}']) 0 := Flat.group hblock rfl rfl
  rw [hb, blockOf_eq _ _ hs]
  unfold ManualInfo.emit
  cases hc : m.context with
  | none =>
    refine ⟨'{' :: (block ++ ['}']), ?_, ?_, ?_, _, _, rfl, .inl rfl⟩
    · intro t
      simp only [hb]
      have := items_block false hblock (space ++ t)
      rw [items_space _ _ _ hs] at this
      simpa using this
    · unfold readManual
      have : strip t%"[]" ('{' :: (block ++ ['}'])) = none := rfl
      rw [this]
      simp only [Option.bind_eq_bind]
      rw [group_nested hblock rfl]
      rfl
    · simp only [hb]
      have := (hf.append (space_flat space hs 0)).nested
      simpa using this
  | some name =>
    have hw := hn name hc
    have h0 : Flat 0 (t%"auto &" ++ name) 0 := Flat.append (x := t%"auto &") (b := 0) rfl (hw.flat 0)
    have h1 : Flat 0 ('(' :: (t%"auto &" ++ name) ++ [')']) 0 := Flat.group h0.nested rfl rfl
    have h2 : Flat 0 (t%"[]" ++ (('(' :: (t%"auto &" ++ name) ++ [')']) ++ (t%" " ++ (('{' :: block ++ ['}']) ++
        (space ++ t%"(context)"))))) 0 := by
      refine Flat.append (x := t%"[]") (b := 0) rfl (h1.append ?_)
      exact Flat.append (x := t%" ") (b := 0) rfl (hf.append ((space_flat _ hs 0).append rfl))
    have ht : t%"[](auto &" ++ name ++ t%") " ++ m.body ++ t%"(context);\n" =
        (t%"[]" ++ (('(' :: (t%"auto &" ++ name) ++ [')']) ++ (t%" " ++ (('{' :: block ++ ['}']) ++
        (space ++ t%"(context)"))))) ++ t%";\n" := by
      rw [hb]
      simp
    simp only [ht]
    refine ⟨_, Item.sentence ⟨h2, _, _, rfl, rfl, by decide, by decide⟩ rfl, ?_, ?_, _, _, rfl, .inr rfl⟩
    · unfold readManual
      rw [strip_append]
      simp only [Option.bind_eq_bind]
      have e : ('(' :: (t%"auto &" ++ name) ++ [')']) ++ (t%" " ++ (('{' :: block ++ ['}']) ++
        (space ++ t%"(context)"))) = '(' :: ((t%"auto &" ++ name) ++ ')' :: (' ' :: '{' :: (block ++ '}' ::
          (space ++ t%"(context)")))) := by simp
      rw [e, group_nested h0.nested rfl]
      simp only [Option.bind_some]
      rw [strip_append]
      simp only [Option.bind_some]
      have e2 : List.dropWhile isSpace (' ' :: '{' :: (block ++ '}' :: (space ++ t%"(context)"))) =
        '{' :: (block ++ '}' :: (space ++ t%"(context)")) := rfl
      rw [e2, group_nested hblock rfl]
      simp only [Option.bind_some]
      rw [space_drop _ _ hs]
      rfl
    · exact h2.nested.append fun _ => rfl

/-! ### Statements of a function -/

theorem sentence_item {s : Str} {x : Str} {r : Statement} (h : s = x ++ t%";\n")
    (hx : Sentence x ∧ readStatement x = some r) :
    ∃ x, Item false s x ∧ readStatement x = some r ∧ Nested s := by
  subst h
  exact ⟨x, Item.sentence hx.1 rfl, hx.2, hx.1.flat.nested.append fun _ => rfl⟩

theorem stmt_item (w : EmitWorld) (s : Stmt) (h : Stmt.Clean w s) :
    ∃ x, Item false (s.emit w) x ∧ readStatement x = some (statementOf w s) ∧ Nested (s.emit w) := by
  cases s with
  | implicitlyConvertible d source target => exact sentence_item (implicit_text ..) (read_implicit h.1 h.2)
  | init d types doc args policies =>
    exact sentence_item (init_text ..) (read_init h.1 h.2.1 h.2.2.1 h.2.2.2)
  | function d isStatic name pointer doc args policies =>
    exact sentence_item (function_text ..) (read_function h.1 h.2.1 h.2.2.1 h.2.2.2.1 h.2.2.2.2)
  | operator d name definition doc => exact sentence_item (operator_text ..) (read_operator h.1 h.2.1 h.2.2)
  | stringFromLshift d name record => exact sentence_item (lshift_text ..) (read_lshift h.1 h.2)
  | typeAttr d name target => exact sentence_item (typeAttr_text ..) (read_typeAttr h.1 h.2)
  | valueAttr d name qualified => exact sentence_item (valueAttr_text ..) (read_valueAttr h.1 h.2.1 h.2.2)
  | property name getter setter => exact sentence_item (property_text ..) (read_property h.1 h.2.1 h.2.2)
  | field d readonly isStatic name qualified => exact sentence_item (field_text ..) (read_field h.1 h.2)
  | enumValue d name scope enumerator doc =>
    exact sentence_item (enumValue_text ..) (read_enumValue h.1 h.2.1 h.2.2.1 h.2.2.2)
  | exportValues =>
    exact sentence_item (x := t%"context.export_values()") rfl
      ⟨⟨rfl, _, _, rfl, rfl, by decide, by decide⟩, rfl⟩
  | useContext =>
    exact sentence_item (x := t%"(void)context") rfl ⟨⟨rfl, _, _, rfl, rfl, by decide, by decide⟩, rfl⟩
  | manual d lambda =>
    obtain ⟨x, h1, h2, h3, c, t, rfl, hc⟩ := manual_item h
    refine ⟨_, h1, ?_, h3⟩
    unfold readStatement
    have e1 : c :: t ≠ t%"(void)context" := by rcases hc with rfl | rfl <;> (intro h; cases h)
    have e2 : strip t%"context." (c :: t) = none := by rcases hc with rfl | rfl <;> rfl
    have e3 : strip t%"::pybind11::implicitly_convertible<" (c :: t) = none := by
      rcases hc with rfl | rfl <;> rfl
    rw [if_neg e1, e2, e3]
    simp only
    rw [h2]
    rfl

/-- How a text is read as a sequence of items. -/
def Parsed {γ : Type} (file : Bool) (r : Str → Option γ) (text : Str) (ks : List γ) : Prop :=
  ∃ xs, (∀ t, itemsLoop file { depth := 1 } [] (text ++ t) =
    (itemsLoop file { depth := 1 } [] t).map (xs ++ ·)) ∧ xs.mapM r = some ks

theorem Parsed.item {γ : Type} {file : Bool} {r : Str → Option γ} {text x : Str} {k : γ}
    (h : Item file text x) (hr : r x = some k) : Parsed file r text [k] :=
  ⟨[x], h, by simp [hr]⟩

theorem Parsed.space {γ : Type} {file : Bool} {r : Str → Option γ} (text : Str) (h : text.all isSpace = true) :
    Parsed file r text [] :=
  ⟨[], fun t => by rw [items_space _ _ _ h]; simp, rfl⟩

theorem Parsed.append {γ : Type} {file : Bool} {r : Str → Option γ} {text text' : Str} {ks ks' : List γ}
    (h : Parsed file r text ks) (h' : Parsed file r text' ks') : Parsed file r (text ++ text') (ks ++ ks') := by
  obtain ⟨xs, h1, h2⟩ := h
  obtain ⟨ys, g1, g2⟩ := h'
  refine ⟨xs ++ ys, fun t => ?_, ?_⟩
  · rw [List.append_assoc, h1, g1]
    cases itemsLoop file { depth := 1 } [] t <;> simp
  · rw [List.mapM_append, h2, g2]
    rfl

theorem Parsed.flatMap {α γ : Type} {file : Bool} {r : Str → Option γ} (f : α → Str) (k : α → List γ)
    (l : List α) (h : ∀ a ∈ l, Parsed file r (f a) (k a)) :
    Parsed file r (l.flatMap f) (l.flatMap k) := by
  induction l with
  | nil => exact .space [] rfl
  | cons a l ih => exact (h a (by simp)).append (ih fun b hb => h b (by simp [hb]))

theorem Parsed.map {α γ : Type} {file : Bool} {r : Str → Option γ} (f : α → Str) (k : α → γ)
    (l : List α) (h : ∀ a ∈ l, Parsed file r (f a) [k a]) :
    Parsed file r (l.flatMap f) (l.map k) := by
  rw [List.map_eq_flatMap]
  exact .flatMap f _ l h

theorem Parsed.result {γ : Type} {file : Bool} {r : Str → Option γ} {text : Str} {ks : List γ}
    (h : Parsed file r text ks) :
    (do (← itemsLoop file { depth := 1 } [] text).mapM r) = some ks := by
  obtain ⟨xs, h1, h2⟩ := h
  have := h1 []
  rw [List.append_nil] at this
  rw [this]
  simp [itemsLoop, h2]

theorem stmts_parsed (w : EmitWorld) (l : List Stmt) (h : ∀ s ∈ l, Stmt.Clean w s) :
    Parsed false readStatement (l.flatMap (Stmt.emit w)) (l.map (statementOf w)) ∧
    Nested (l.flatMap (Stmt.emit w)) := by
  constructor
  · refine .map _ _ _ fun s hs => ?_
    obtain ⟨x, h1, h2, _⟩ := stmt_item w s (h s hs)
    exact .item h1 h2
  · induction l with
    | nil => exact .nil
    | cons s l ih =>
      obtain ⟨_, _, _, h3⟩ := stmt_item w s (h s (by simp))
      exact h3.append (ih fun t ht => h t (by simp [ht]))

theorem readBlock_stmts (w : EmitWorld) (l : List Stmt) (h : ∀ s ∈ l, Stmt.Clean w s) :
    readBlock (l.flatMap (Stmt.emit w)) = some (l.map (statementOf w)) :=
  (stmts_parsed w l h).1.result

/-! ### Types and objects -/

/-- The template arguments. -/
def classTypes (name : Str) (bases : List Str) (holder : Str) : List Str :=
  name :: bases ++ (optional holder).toList

theorem record_text (name : Str) (bases : List Str) (holder t : Str) :
    (ContextType.record name bases holder).emit ++ t =
      t%"::pybind11::class_<" ++ (joined (classTypes name bases holder) ++ '>' :: t) := by
  unfold classTypes ContextType.emit optional
  cases holder <;> simp [joined]

theorem classTypes_argument {name : Str} {bases : List Str} {holder : Str}
    (h : ContextType.Clean (.record name bases holder)) :
    ∀ x ∈ classTypes name bases holder, Argument x := by
  unfold classTypes optional
  intro x hx
  simp only [List.cons_append, List.mem_cons, List.mem_append, Option.mem_toList] at hx
  rcases hx with rfl | hx | hx
  · exact h.1.argument
  · exact (h.2.1 x hx).argument
  · split at hx
    · cases hx
    · cases hx
      rename_i hne
      exact (h.2.2 hne).argument

theorem contextType_flat {c : ContextType} (h : ContextType.Clean c) : Flat 0 c.emit 0 := by
  cases c with
  | module => rfl
  | enum name =>
    exact Flat.append (b := 1) (Flat.append (x := t%"::pybind11::enum_<") (b := 1) rfl (h.flat 1)) rfl
  | record name bases holder =>
    have := record_text name bases holder []
    rw [List.append_nil] at this
    rw [this]
    refine Flat.append (x := t%"::pybind11::class_<") (b := 1) rfl ?_
    exact Flat.append (joined_flat _ (classTypes_argument h) 0) rfl

theorem readObjectType_emit {c : ContextType} (h : ContextType.Clean c) (t : Str) :
    readObjectType (c.emit ++ t) = some (objectTypeOf c, t) := by
  cases c with
  | module =>
    unfold readObjectType ContextType.emit
    rw [strip_append]
    rfl
  | enum name =>
    have e : (ContextType.enum name).emit ++ t = t%"::pybind11::enum_<" ++ (name ++ '>' :: t) := by
      simp [ContextType.emit]
    have h1 : ∀ t, strip t%"::pybind11::module" (t%"::pybind11::enum_<" ++ t) = none := fun _ => rfl
    unfold readObjectType
    rw [e, h1, strip_append]
    simp only [Option.bind_eq_bind]
    rw [angleGroup_angled (Clean.angled h)]
    rfl
  | record name bases holder =>
    have h1 : ∀ t, strip t%"::pybind11::module" (t%"::pybind11::class_<" ++ t) = none := fun _ => rfl
    have h2 : ∀ t, strip t%"::pybind11::enum_<" (t%"::pybind11::class_<" ++ t) = none := fun _ => rfl
    unfold readObjectType
    rw [record_text, h1, h2, strip_append]
    simp only [Option.bind_eq_bind, Option.bind_some]
    rw [angleGroup_angled (joined_angled _ (classTypes_argument h))]
    simp only [Option.bind_some]
    rw [splitArgs_joined _ (classTypes_argument h)]
    rfl

/-- The arguments for a new type. -/
def typeArgs (parent name doc : Str) (flag : Option Str) : List Str :=
  parent :: emitStringLiteral name :: ((optional doc).toList.map emitStringLiteral ++ flag.toList)

theorem type_text (c : ContextType) (parent name doc : Str) (flag : Option Str) :
    (Introducer.type c parent name doc flag).emit =
      c.emit ++ '(' :: (joined (typeArgs parent name doc flag) ++ [')']) := by
  unfold Introducer.emit typeArgs optional emitOptionalDoc
  cases flag <;> cases doc <;> simp [joined]

theorem typeArgs_argument {parent name doc : Str} {flag : Option Str} (hp : Word parent)
    (hf : ∀ f, flag = some f → Clean f) :
    ∀ x ∈ typeArgs parent name doc flag, Argument x := by
  refine cons_argument (word_argument hp) (cons_argument (literal_argument name) ?_)
  intro x hx
  rcases List.mem_append.1 hx with hx | hx
  · obtain ⟨y, _, rfl⟩ := List.mem_map.1 hx
    exact literal_argument y
  · rw [Option.mem_toList] at hx
    exact (hf x hx).argument

theorem introducer_flat {i : Introducer} (h : Introducer.Clean i) : Flat 0 i.emit 0 := by
  cases i with
  | same parent => exact Word.flat h.2 0
  | submodule parent name =>
    have := (Word.flat h.1.2 0).append (Flat.append (x := t%".def_submodule") (b := 0) rfl
      (Flat.group (o := '(') (c := ')') (Flat.literal name 0).nested rfl rfl))
    simpa [Introducer.emit] using this
  | type c parent name doc flag =>
    rw [type_text]
    exact (contextType_flat h.1).append (Flat.group
      (joined_nested _ (typeArgs_argument h.2.1 fun f hf => (h.2.2.2.2 f hf).1)) rfl rfl)

theorem contextType_start (c : ContextType) : ∃ t, c.emit = t%"::" ++ t := by
  cases c with
  | module => exact ⟨_, rfl⟩
  | enum name => exact ⟨_, by simp [ContextType.emit]; rfl⟩
  | record name bases holder => exact ⟨_, by simp [ContextType.emit]; rfl⟩

theorem strip_word (x t : Str) (h : Word x) : strip t%"::" (x ++ t) = none := by
  obtain ⟨h1, h2⟩ := h
  cases x with
  | nil => exact absurd rfl h1
  | cons c x =>
    have hc : ':' ≠ c := by
      rintro rfl
      exact absurd (h2 ':' (by simp)) (by decide)
    simp [strip, hc]

theorem readCreation_emit {i : Introducer} (h : Introducer.Clean i) :
    readCreation i.emit = some (creationOf i) := by
  cases i with
  | same parent =>
    unfold readCreation Introducer.emit
    have h1 := strip_word parent [] h
    rw [List.append_nil] at h1
    have h2 : identifier parent = (parent, []) := by
      have := span_append isIdentifierContinue parent [] h.2 (by simp)
      rwa [List.append_nil] at this
    rw [h1]
    simp only [h2]
    rfl
  | submodule parent name =>
    have e : (Introducer.submodule parent name).emit =
        parent ++ ('.' :: (t%"def_submodule" ++ '(' :: (joined [emitStringLiteral name] ++ [')']))) := by
      simp [Introducer.emit, joined]
    unfold readCreation
    rw [e, strip_word _ _ h.1]
    simp only
    rw [identifier_word h.1 _ _ rfl]
    simp only [reduceCtorEq, if_false]
    have hargs := cons_argument (literal_argument name) nil_argument
    have hs : ∀ t, strip t%".def_submodule" ('.' :: (t%"def_submodule" ++ t)) = some t := fun t => strip_append _ _
    rw [hs]
    simp only [Option.bind_eq_bind, Option.bind_some]
    rw [group_nested (joined_nested _ hargs) rfl]
    simp only [Option.bind_some, ne_eq, not_true_eq_false, if_false]
    rw [splitArgs_joined _ hargs]
    simp only [Option.bind_some, literal_emit h.2]
    rfl
  | type c parent name doc flag =>
    obtain ⟨hc, hp, hn, hd, hf⟩ := h
    unfold readCreation
    obtain ⟨t, ht⟩ := contextType_start c
    have hargs := typeArgs_argument (name := name) (doc := doc) hp fun f h => (hf f h).1
    have hs : strip t%"::" (Introducer.type c parent name doc flag).emit =
        some (t ++ '(' :: (joined (typeArgs parent name doc flag) ++ [')'])) := by
      rw [type_text, ht, List.append_assoc]
      exact strip_append _ _
    rw [hs, type_text, readObjectType_emit hc]
    simp only [Option.bind_eq_bind, Option.bind_some]
    rw [group_nested (joined_nested _ hargs) rfl]
    simp only [Option.bind_some, ne_eq, not_true_eq_false, if_false]
    rw [splitArgs_joined _ hargs]
    unfold typeArgs creationOf optional
    simp only [Option.bind_some]
    by_cases h0 : doc = []
    · subst h0
      cases flag with
      | none => simp [literal_emit hn]
      | some f => simp [literal_emit hn, (hf f rfl).2]
    · cases flag with
      | none => simp [literal_emit hn, literal_emit hd, h0]
      | some f => simp [literal_emit hn, literal_emit hd, h0]

/-! ### The module definition -/

theorem module_sentence {s x : Str} {r : ModuleStatement} (h : s = x ++ t%";\n") (hx : Sentence x)
    (hr : readModuleStatement x = some r) : Parsed false readModuleStatement s [r] ∧ Nested s := by
  subst h
  exact ⟨.item (Item.sentence hx rfl) hr, hx.flat.nested.append fun _ => rfl⟩

theorem introduce_parsed (w : EmitWorld) (x : Str) (i : Introducer) (hx : Word x) (h : Introducer.Clean i) :
    Parsed false readModuleStatement (Line.emit w (.introduce x i)) [.create x (creationOf i)] ∧
    Nested (Line.emit w (.introduce x i)) := by
  have e : Line.emit w (.introduce x i) = (t%"auto " ++ (x ++ ' ' :: (t%"= " ++ i.emit))) ++ t%";\n" := by
    simp [Line.emit]
  refine module_sentence e ⟨?_, _, _, rfl, rfl, by decide, by decide⟩ ?_
  · exact Flat.append (x := t%"auto ") (b := 0) rfl ((Word.flat hx.2 0).append
      (Flat.append (x := t%" = ") (b := 0) rfl (introducer_flat h)))
  · unfold readModuleStatement
    rw [strip_append]
    simp only
    rw [identifier_word hx _ _ rfl]
    have hs : ∀ t, strip t%" = " (' ' :: (t%"= " ++ t)) = some t := fun t => strip_append _ _
    simp only [hs, Option.bind_eq_bind, Option.bind_some]
    rw [readCreation_emit h]
    rfl

theorem call_parsed (w : EmitWorld) (x : Str) (hx : Word x) :
    Parsed false readModuleStatement (Line.emit w (.call x)) [.call x x] ∧
    Nested (Line.emit w (.call x)) := by
  have e : Line.emit w (.call x) = (t%"expose_" ++ (x ++ '(' :: (joined [x] ++ [')']))) ++ t%";\n" := by
    simp [Line.emit, joined]
  have hargs := cons_argument (word_argument hx) nil_argument
  refine module_sentence e ⟨?_, _, _, rfl, rfl, by decide, by decide⟩ ?_
  · exact Flat.append (x := t%"expose_") (b := 0) rfl ((Word.flat hx.2 0).append
      (Flat.group (joined_nested _ hargs) rfl rfl))
  · unfold readModuleStatement
    have h1 : ∀ t, strip t%"auto " (t%"expose_" ++ t) = none := fun _ => rfl
    rw [h1, strip_append]
    simp only
    rw [identifier_word hx _ _ rfl]
    simp only [Option.bind_eq_bind]
    rw [group_nested (joined_nested _ hargs) rfl]
    simp only [Option.bind_some, ne_eq, not_true_eq_false, if_false]
    rw [splitArgs_joined _ hargs]
    rfl

theorem postamble_parsed (w : EmitWorld) (d l : Nat) (h : ManualInfo.Clean (w.manual l)) :
    Parsed false readModuleStatement (Line.emit w (.postamble d l))
      [.manual (w.manual l).context (blockOf (w.manual l).body)] ∧
    Nested (Line.emit w (.postamble d l)) := by
  obtain ⟨x, h1, h2, h3, c, t, rfl, hc⟩ := manual_item h
  refine ⟨(Parsed.space (text := t%"\n") rfl).append (.item h1 ?_), Nested.append (fun _ => rfl) h3⟩
  unfold readModuleStatement
  have e1 : strip t%"auto " (c :: t) = none := by rcases hc with rfl | rfl <;> rfl
  have e2 : strip t%"expose_" (c :: t) = none := by rcases hc with rfl | rfl <;> rfl
  rw [e1, e2]
  simp only
  rw [h2]
  rfl

/-- Expected for lines in the module definition. -/
def moduleLineOf (w : EmitWorld) : Line → List ModuleStatement
  | .introduce x i => [.create x (creationOf i)]
  | .call x => [.call x x]
  | .postamble _ l => [.manual (w.manual l).context (blockOf (w.manual l).body)]
  | _ => []

/-- Lines in the module definition. -/
def inModule : Line → Bool
  | .introduce _ _ => true
  | .call _ => true
  | .postamble _ _ => true
  | .blank => true
  | _ => false

theorem line_parsed (w : EmitWorld) (l : Line) (hl : inModule l = true) (h : Line.Clean w l) :
    Parsed false readModuleStatement (l.emit w) (moduleLineOf w l) ∧ Nested (l.emit w) := by
  cases l with
  | introduce x i => exact introduce_parsed w x i h.1 h.2
  | call x => exact call_parsed w x h
  | postamble d l => exact postamble_parsed w d l h
  | blank => exact ⟨.space _ rfl, fun _ => rfl⟩
  | _ => simp [inModule] at hl

theorem lines_parsed (w : EmitWorld) (ls : List Line) (hl : ∀ l ∈ ls, inModule l = true)
    (h : ∀ l ∈ ls, Line.Clean w l) :
    Parsed false readModuleStatement (ls.flatMap (Line.emit w)) (ls.flatMap (moduleLineOf w)) ∧
    Nested (ls.flatMap (Line.emit w)) := by
  refine ⟨.flatMap _ _ _ fun l hm => (line_parsed w l (hl l hm) (h l hm)).1, ?_⟩
  induction ls with
  | nil => exact .nil
  | cons l ls ih =>
    exact (line_parsed w l (hl l (by simp)) (h l (by simp))).2.append
      (ih (fun m hm => hl m (by simp [hm])) fun m hm => h m (by simp [hm]))

/-! ### Declarations -/

theorem items_plain (file : Bool) (x : Str) (hx : ∀ c ∈ x, isIdentifierContinue c = true ∨ c = ' ')
    (done t : Str) (hd : done ≠ []) :
    itemsLoop file { depth := 1 } done (x ++ t) = itemsLoop file { depth := 1 } (x.reverse ++ done) t := by
  induction x generalizing done with
  | nil => rfl
  | cons c x ih =>
    have hc : c ≠ ';' ∧ c ≠ '}' ∧ c ≠ '"' ∧ c ≠ '\'' ∧ isOpen c = false ∧ isClose c = false := by
      rcases hx c (by simp) with h | rfl
      · obtain ⟨h1, h2, h3, h4, _, _, _, _, h9, _, _⟩ := word_plain h
        refine ⟨h9, ?_, h1, h2, h3, h4⟩
        rintro rfl
        simp [isClose] at h4
      · decide
    obtain ⟨h1, h2, h3, h4, h5, h6⟩ := hc
    have hn : ({ depth := 1 } : Pos).next c = some { depth := 1 } := by
      simp [Pos.next, h3, h4, h5, h6]
    rw [List.cons_append, itemsLoop]
    simp only [h1, decide_false, Bool.false_and, Bool.false_eq_true, if_false, hd, Bool.and_false, hn, h2,
      Nat.one_ne_zero]
    rw [ih (fun d hd => hx d (by simp [hd])) _ (by simp)]
    simp

/-- A declaration up to the parameters. -/
theorem items_head (file : Bool) (x p : Str) (c : Char) (t : Str)
    (hx : ∀ d ∈ c :: x, isIdentifierContinue d = true ∨ d = ' ') (hc : isSpace c = false)
    (hp : Nested p) :
    itemsLoop file { depth := 1 } [] (c :: x ++ '(' :: (p ++ ')' :: t)) =
      itemsLoop file { depth := 1 } ((c :: x ++ '(' :: (p ++ [')'])).reverse) t := by
  have h1 : ∀ r, itemsLoop file { depth := 1 } [] (c :: x ++ r) =
      itemsLoop file { depth := 1 } ((c :: x).reverse) r := by
    intro r
    have hc' : c ≠ ';' ∧ c ≠ '}' ∧ c ≠ '"' ∧ c ≠ '\'' ∧ isOpen c = false ∧ isClose c = false := by
      rcases hx c (by simp) with h | rfl
      · obtain ⟨h1, h2, h3, h4, _, _, _, _, h9, _, _⟩ := word_plain h
        refine ⟨h9, ?_, h1, h2, h3, h4⟩
        rintro rfl
        simp [isClose] at h4
      · decide
    obtain ⟨h1, h2, h3, h4, h5, h6⟩ := hc'
    have hn : ({ depth := 1 } : Pos).next c = some { depth := 1 } := by
      simp [Pos.next, h3, h4, h5, h6]
    rw [List.cons_append, itemsLoop]
    simp only [h1, decide_false, Bool.false_and, Bool.false_eq_true, if_false, hc, hn, h2,
      Nat.one_ne_zero]
    rw [items_plain file x (fun d hd => hx d (by simp [hd])) _ _ (by simp)]
    simp
  rw [h1]
  have h2 : ∀ done r, done ≠ [] → itemsLoop file { depth := 1 } done ('(' :: r) =
      itemsLoop file (({ depth := 1 } : Pos).deep 0) ('(' :: done) r := by
    intro done r hd
    rw [itemsLoop]
    simp [Pos.next, isOpen, isSpace, Pos.deep, hd]
  have h3 : ∀ done r, done ≠ [] → itemsLoop file (({ depth := 1 } : Pos).deep 0) done (')' :: r) =
      itemsLoop file { depth := 1 } (')' :: done) r := by
    intro done r hd
    rw [itemsLoop]
    simp [Pos.next, isOpen, isClose, isSpace, Pos.deep, hd]
  rw [h2 _ _ (by simp), items_inside file (hp 0) (by decide) _ _ (by simp), h3 _ _ (by simp)]
  simp

theorem declare_item (x p s : Str) (c : Char)
    (hx : ∀ d ∈ c :: x, isIdentifierContinue d = true ∨ d = ' ') (hc : isSpace c = false) (hp : Nested p)
    (hs : s.all isSpace = true) :
    Item true (c :: x ++ '(' :: (p ++ ')' :: ';' :: s)) (c :: x ++ '(' :: (p ++ [')'])) := by
  intro t
  have e : c :: x ++ '(' :: (p ++ ')' :: ';' :: s) ++ t = c :: x ++ '(' :: (p ++ ')' :: (';' :: (s ++ t))) := by
    simp
  rw [e, items_head true x p c _ hx hc hp, itemsLoop]
  simp only [decide_true, Bool.and_self, if_true, List.reverse_reverse]
  rw [items_space _ _ _ hs]

theorem define_item (x p b s : Str) (c : Char)
    (hx : ∀ d ∈ c :: x, isIdentifierContinue d = true ∨ d = ' ') (hc : isSpace c = false) (hp : Nested p)
    (hb : Nested b) (hs : s.all isSpace = true) :
    Item true (c :: x ++ '(' :: (p ++ ')' :: (' ' :: '{' :: (b ++ '}' :: s))))
      (c :: x ++ '(' :: (p ++ ')' :: (' ' :: '{' :: (b ++ ['}'])))) := by
  intro t
  have e : c :: x ++ '(' :: (p ++ ')' :: (' ' :: '{' :: (b ++ '}' :: s))) ++ t =
      c :: x ++ '(' :: (p ++ ')' :: (' ' :: '{' :: (b ++ '}' :: (s ++ t)))) := by
    simp
  have h2 : ∀ done r, done ≠ [] → itemsLoop true { depth := 1 } done (' ' :: '{' :: r) =
      itemsLoop true (({ depth := 1 } : Pos).deep 0) ('{' :: ' ' :: done) r := by
    intro done r hd
    rw [itemsLoop]
    simp only [show (' ' = ';') = False by simp, decide_false, Bool.false_and, Bool.false_eq_true, if_false, hd, Bool.and_false]
    rw [show ({ depth := 1 } : Pos).next ' ' = some { depth := 1 } from rfl]
    simp only [show (' ' = '}') = False by simp, decide_false, Bool.false_and, Bool.false_eq_true, if_false, Nat.one_ne_zero]
    rw [itemsLoop]
    simp [Pos.next, isOpen, isSpace, Pos.deep]
  have h3 : ∀ done r, done ≠ [] → itemsLoop true (({ depth := 1 } : Pos).deep 0) done ('}' :: r) =
      (itemsLoop true { depth := 1 } [] r).map (('}' :: done).reverse :: ·) := by
    intro done r hd
    rw [itemsLoop]
    simp [Pos.next, isOpen, isClose, isSpace, Pos.deep, hd]
  rw [e, items_head true x p c _ hx hc hp, h2 _ _ (by simp), items_inside true (hb 0) (by decide) _ _ (by simp),
    h3 _ _ (by simp), items_space _ _ _ hs]
  simp

theorem readDeclaration_head (f : Str) (type : ContextType) (hf : Word f) (ht : ContextType.Clean type)
    (r : Str) :
    readDeclaration (t%"void expose_" ++ (f ++ '(' :: (type.emit ++ t%"& context" ++ ')' :: r))) =
      if r = [] then some (.declare f (objectTypeOf type))
      else do
        let (body, t) ← group '{' (r.dropWhile isSpace)
        if t ≠ [] then none else return .define f (objectTypeOf type) (← readBlock body) := by
  have hp : Nested (type.emit ++ t%"& context") := ((contextType_flat ht).append (y := t%"& context") (c := 0) rfl).nested
  unfold readDeclaration
  rw [strip_append]
  simp only
  rw [identifier_word hf _ _ rfl]
  simp only [Option.bind_eq_bind]
  rw [group_nested hp rfl]
  simp only [Option.bind_some]
  rw [readObjectType_emit ht]
  simp only [Option.bind_some, ne_eq, not_true_eq_false, if_false]
  rfl

theorem head_plain {f : Str} (hf : Word f) :
    ∀ d ∈ 'v' :: (t%"oid expose_" ++ f), isIdentifierContinue d = true ∨ d = ' ' := by
  intro d hd
  have : d ∈ t%"void expose_" ++ f := hd
  rcases List.mem_append.1 this with h | h
  · clear this hd
    revert d
    decide
  · exact .inl (hf.2 d h)

theorem declare_parsed (w : EmitWorld) (f : Str) (type : ContextType) (hf : Word f)
    (ht : ContextType.Clean type) :
    Parsed true readDeclaration (Line.emit w (.declare f type)) [.declare f (objectTypeOf type)] := by
  have hp : Nested (type.emit ++ t%"& context") := ((contextType_flat ht).append (y := t%"& context") (c := 0) rfl).nested
  have := declare_item (t%"oid expose_" ++ f) (type.emit ++ t%"& context") t%"\n" 'v' (head_plain hf) rfl hp rfl
  have e : Line.emit w (.declare f type) = 'v' :: (t%"oid expose_" ++ f) ++
      '(' :: (type.emit ++ t%"& context" ++ ')' :: ';' :: t%"\n") := by
    simp [Line.emit]
  rw [e]
  refine .item this ?_
  have e2 : 'v' :: (t%"oid expose_" ++ f) ++ '(' :: (type.emit ++ t%"& context" ++ [')']) =
      t%"void expose_" ++ (f ++ '(' :: (type.emit ++ t%"& context" ++ ')' :: [])) := by
    simp
  rw [e2, readDeclaration_head f type hf ht, if_pos rfl]

theorem define_parsed (w : EmitWorld) (f : Str) (type : ContextType) (l : List Stmt) (hf : Word f)
    (ht : ContextType.Clean type) (hl : ∀ s ∈ l, Stmt.Clean w s) :
    Parsed true readDeclaration
      ((Line.defineBegin f type :: l.map Line.stmt ++ [Line.defineEnd]).flatMap (Line.emit w))
      [.define f (objectTypeOf type) (l.map (statementOf w))] := by
  have hp : Nested (type.emit ++ t%"& context") := ((contextType_flat ht).append (y := t%"& context") (c := 0) rfl).nested
  obtain ⟨hs, hb⟩ := stmts_parsed w l hl
  have hb' : Nested (t%"\n" ++ l.flatMap (Stmt.emit w)) := Nested.append (fun _ => rfl) hb
  have := define_item (t%"oid expose_" ++ f) (type.emit ++ t%"& context") (t%"\n" ++ l.flatMap (Stmt.emit w))
    t%"\n\n" 'v' (head_plain hf) rfl hp hb' rfl
  have e : (Line.defineBegin f type :: l.map Line.stmt ++ [Line.defineEnd]).flatMap (Line.emit w) =
      'v' :: (t%"oid expose_" ++ f) ++ '(' :: (type.emit ++ t%"& context" ++ ')' :: (' ' :: '{' ::
        ((t%"\n" ++ l.flatMap (Stmt.emit w)) ++ '}' :: t%"\n\n"))) := by
    have : (l.map Line.stmt).flatMap (Line.emit w) = l.flatMap (Stmt.emit w) := by
      rw [List.flatMap_map]
      rfl
    rw [List.cons_append, List.flatMap_cons, List.flatMap_append, this]
    simp [Line.emit]
  rw [e]
  refine .item this ?_
  have e2 : 'v' :: (t%"oid expose_" ++ f) ++ '(' :: (type.emit ++ t%"& context" ++ ')' :: (' ' :: '{' ::
        ((t%"\n" ++ l.flatMap (Stmt.emit w)) ++ ['}']))) =
      t%"void expose_" ++ (f ++ '(' :: (type.emit ++ t%"& context" ++ ')' :: (' ' :: '{' ::
        ((t%"\n" ++ l.flatMap (Stmt.emit w)) ++ ['}'])))) := by
    simp
  rw [e2, readDeclaration_head f type hf ht, if_neg (by simp)]
  have e3 : ∀ t, List.dropWhile isSpace (' ' :: '{' :: t) = '{' :: t := fun _ => rfl
  rw [e3, group_nested hb' rfl]
  simp only [Option.bind_eq_bind, Option.bind_some, ne_eq, not_true_eq_false, if_false]
  have hr : readBlock (t%"\n" ++ l.flatMap (Stmt.emit w)) = some (l.map (statementOf w)) := by
    have := (Parsed.space (file := false) (r := readStatement) (text := t%"\n") rfl).append hs
    exact this.result
  rw [hr]
  rfl

theorem module_parsed (w : EmitWorld) (name : Str) (ls : List Line) (hn : Word name)
    (hl : ∀ l ∈ ls, inModule l = true) (h : ∀ l ∈ ls, Line.Clean w l) :
    Parsed true readDeclaration
      ((Line.moduleBegin name :: ls ++ [Line.moduleEnd]).flatMap (Line.emit w))
      [.module name (ls.flatMap (moduleLineOf w))] := by
  obtain ⟨hs, hb⟩ := lines_parsed w ls hl h
  have hb' : Nested (t%"\n" ++ ls.flatMap (Line.emit w)) := Nested.append (fun _ => rfl) hb
  have hargs := cons_argument (word_argument hn)
    (cons_argument (word_argument (x := t%"root") ⟨by decide, by decide⟩) nil_argument)
  have := define_item t%"YBIND11_MODULE" (joined [name, t%"root"]) (t%"\n" ++ ls.flatMap (Line.emit w))
    t%"\n\n" 'P' (by decide) rfl (joined_nested _ hargs) hb' rfl
  have e : (Line.moduleBegin name :: ls ++ [Line.moduleEnd]).flatMap (Line.emit w) =
      'P' :: t%"YBIND11_MODULE" ++ '(' :: (joined [name, t%"root"] ++ ')' :: (' ' :: '{' ::
        ((t%"\n" ++ ls.flatMap (Line.emit w)) ++ '}' :: t%"\n\n"))) := by
    rw [List.cons_append, List.flatMap_cons, List.flatMap_append]
    simp [Line.emit, joined]
  rw [e]
  refine .item this ?_
  unfold readDeclaration
  have h1 : ∀ t, strip t%"void expose_" ('P' :: t) = none := fun _ => rfl
  have h2 : ∀ t, strip t%"PYBIND11_MODULE" ('P' :: t%"YBIND11_MODULE" ++ t) = some t :=
    fun t => strip_append _ _
  rw [List.cons_append, h1, ← List.cons_append, h2]
  simp only [Option.bind_eq_bind, Option.bind_some]
  rw [group_nested (joined_nested _ hargs) rfl]
  simp only [Option.bind_some]
  rw [splitArgs_joined _ hargs]
  simp only [Option.bind_some]
  have e3 : ∀ t, List.dropWhile isSpace (' ' :: '{' :: t) = '{' :: t := fun _ => rfl
  rw [e3, group_nested hb' rfl]
  simp only [Option.bind_some]
  have hr : (do (← statements (t%"\n" ++ ls.flatMap (Line.emit w))).mapM readModuleStatement) =
      some (ls.flatMap (moduleLineOf w)) := by
    have := (Parsed.space (file := false) (r := readModuleStatement) (text := t%"\n") rfl).append hs
    exact this.result
  simp only [Option.bind_eq_bind] at hr
  rw [if_neg (by simp)]
  cases hst : statements (t%"\n" ++ ls.flatMap (Line.emit w)) with
  | none => rw [hst] at hr; cases hr
  | some xs =>
    rw [hst] at hr
    simp only [Option.bind_some] at hr ⊢
    rw [hr]
    rfl

/-! ### Includes -/

theorem line_eq (x t : Str) (h : ∀ c ∈ x, c ≠ '\n') : line (x ++ '\n' :: t) = (x, t) := by
  unfold line
  rw [span_append _ x ('\n' :: t) (fun c hc => by simpa using h c hc) (by
    intro c hc
    simp at hc
    subst hc
    rfl)]
  rfl

theorem includes_eq (l : List Str) (h : ∀ x ∈ l, ∀ c ∈ x, c ≠ '\n') (t : Str)
    (ht : strip t%"#include " t = none) (n : Nat) (hn : l.length < n) :
    includes n (l.flatMap (fun x => t%"#include " ++ x ++ t%"\n") ++ t) = some (l, t) := by
  induction l generalizing n with
  | nil =>
    cases n with
    | zero => simp at hn
    | succ n =>
      rw [List.flatMap_nil, List.nil_append, includes, ht]
  | cons x l ih =>
    cases n with
    | zero => simp at hn
    | succ n =>
      have e : (x :: l).flatMap (fun x => t%"#include " ++ x ++ t%"\n") ++ t =
          t%"#include " ++ (x ++ '\n' :: (l.flatMap (fun x => t%"#include " ++ x ++ t%"\n") ++ t)) := by
        simp
      rw [e, includes, strip_append]
      simp only
      rw [line_eq _ _ (h x (by simp))]
      simp only [Option.bind_eq_bind]
      rw [ih (fun y hy => h y (by simp [hy])) n (by simpa using hn)]
      rfl

theorem header_eq (i : ToolInput) : (includeLines i).flatMap (· ++ ['\n']) =
    (includesOf i).flatMap fun x => t%"#include " ++ x ++ t%"\n" := by
  simp [includeLines, includesOf, List.flatMap_map]

end Verif.Spec.Code
