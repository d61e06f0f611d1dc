import Verif.Dump.Model

/-!
# Properties of the text of an object (C181)
-/

namespace Verif.Dump

open Verif.Str

/-! ## Specification -/

mutual
/-- What is shown of an object: a heading with a value, with nothing, or with what it consists of. -/
inductive Tree where
  | value (heading v : Text)
  | null (heading : Text)
  | object (heading : Text) (parts : Forest)
/-- Several of them. -/
inductive Forest where
  | nil
  | cons (t : Tree) (rest : Forest)
end

mutual
/-- The lines of a tree, with their depth. -/
def Tree.lines : Tree → List (Nat × Text)
  | .value h v => [(0, h ++ " = '".toList ++ v ++ "'".toList)]
  | .null h => [(0, h ++ " = null".toList)]
  | .object h parts => (0, h ++ " {".toList) :: parts.lines.map (fun l => (l.1 + 1, l.2)) ++ [(0, "}".toList)]
/-- The lines of several trees. -/
def Forest.lines : Forest → List (Nat × Text)
  | .nil => []
  | .cons t rest => t.lines ++ rest.lines
end

/-- A page: every line is moved to the right by its depth and ended by a line break. -/
def page (indent : Nat) (lines : List (Nat × Text)) : Text :=
  lines.flatMap (fun l => List.replicate (indent + l.1) '\t' ++ l.2 ++ ['\n'])

/-- The words an object is introduced with, one blank between them: its type, its name and its mutability, behind its visibility if it is not
declared as stable. -/
def title (o : Obj) : Text :=
  List.intercalate [' '] ((if o.stable = false then [o.visibility] else []) ++ [o.type, o.name, o.mutability])

/-- Is this symbol of an object shown, and which object is it?  Methods, types and namespaces are not shown, nor what is called `this`. -/
def Shown (H : Heap) (symbol : Text × Sym) (id : Nat) : Prop :=
  symbol.2 = .object id ∧ symbol.1 ≠ "this".toList ∧ (H id).name ≠ "this".toList

mutual
/-- The tree of an object: variables stand for the object they refer to, an object consists of the symbols that are shown. -/
inductive Unfolds (H : Heap) : Nat → Tree → Prop where
  | refers {id t tree} : (H id).kind = .refers t → Unfolds H t tree → Unfolds H id tree
  | value {id v} : (H id).kind = .value v → Unfolds H id (.value (title (H id)) v)
  | null {id} : (H id).kind = .null → Unfolds H id (.null (title (H id)))
  | full {id symbols parts} : (H id).kind = .full symbols → UnfoldsAll H symbols parts →
      Unfolds H id (.object (title (H id)) parts)
/-- The trees of the symbols that are shown, in their order. -/
inductive UnfoldsAll (H : Heap) : List (Text × Sym) → Forest → Prop where
  | nil : UnfoldsAll H [] .nil
  | hidden {s rest parts} : (¬ ∃ id, Shown H s id) → UnfoldsAll H rest parts → UnfoldsAll H (s :: rest) parts
  | shown {s rest id tree parts} : Shown H s id → Unfolds H id tree → UnfoldsAll H rest parts →
      UnfoldsAll H (s :: rest) (.cons tree parts)
end

/-- The text of the object `id` needs the one of the object `t`. -/
def Needs (H : Heap) (t id : Nat) : Prop :=
  (H id).kind = .refers t ∨ ∃ symbols, (H id).kind = .full symbols ∧ ∃ s ∈ symbols, Shown H s t

/-! ## Proofs -/

theorem tabs_eq (n : Nat) : tabs n = List.replicate n '\t' := by
  induction n with
  | zero => rfl
  | succ n ih => rw [tabs, ih, List.replicate_succ]

theorem heading_eq (o : Obj) : o.heading = title o := by
  cases h : o.stable <;> simp [Obj.heading, title, h, List.intercalate, List.intersperse]

theorem page_append (n : Nat) (a b : List (Nat × Text)) : page n (a ++ b) = page n a ++ page n b := by
  simp [page]

theorem page_deeper (n : Nat) (a : List (Nat × Text)) : page n (a.map (fun l => (l.1 + 1, l.2))) = page (n + 1) a := by
  induction a with
  | nil => rfl
  | cons l a ih =>
    simp only [page, List.map_cons, List.flatMap_cons] at ih ⊢
    rw [ih, show n + (l.1 + 1) = n + 1 + l.1 by omega]

theorem page_one (n : Nat) (x : Text) : page n [(0, x)] = tabs n ++ x ++ ['\n'] := by
  simp [page, tabs_eq]

theorem skipped_iff (H : Heap) (s : Text × Sym) : skipped H s = true ↔ ¬ ∃ id, Shown H s id := by
  obtain ⟨key, s⟩ := s
  cases s with
  | other => simp [skipped, Shown]
  | object id =>
    show (key == this || (H id).name == this) = true ↔ _
    have e : "this".toList = this := rfl
    simp only [Bool.or_eq_true, beq_iff_eq, Shown, Sym.object.injEq, e]
    constructor
    · rintro h ⟨i, rfl, h1, h2⟩
      rcases h with h | h
      · exact h1 h
      · exact h2 h
    · intro h
      by_cases h1 : key = this
      · exact Or.inl h1
      · by_cases h2 : (H id).name = this
        · exact Or.inr h2
        · exact absurd ⟨id, rfl, h1, h2⟩ h

theorem Shown.not_skipped {H : Heap} {s : Text × Sym} {id : Nat} (h : Shown H s id) : skipped H s = false := by
  cases hs : skipped H s with
  | false => rfl
  | true => exact absurd ⟨id, h⟩ ((skipped_iff H s).1 hs)

theorem not_skipped {H : Heap} {key : Text} {s : Sym} (h : skipped H (key, s) = false) :
    ∃ id, s = .object id ∧ Shown H (key, s) id := by
  have h1 : ∃ id, Shown H (key, s) id := by
    refine Classical.byContradiction (fun hn => ?_)
    rw [(skipped_iff H _).2 hn] at h
    cases h
  obtain ⟨id, h2⟩ := h1
  exact ⟨id, h2.1, h2⟩

/-- One round of the loop for a symbol that is shown. -/
theorem dumpAll_shown {H : Heap} {f : Nat → Option Text} {s : Text × Sym} {id : Nat} (rest : List (Text × Sym))
    (h : Shown H s id) : dumpAll H f (s :: rest) = match f id, dumpAll H f rest with
      | some x, some y => some (x ++ '\n' :: y)
      | _, _ => none := by
  obtain ⟨key, s⟩ := s
  have hs := h.not_skipped
  have he : s = .object id := h.1
  subst he
  simp only [dumpAll, hs, Bool.false_eq_true, if_false]
  cases f id <;> cases dumpAll H f rest <;> rfl

theorem dumpAll_hidden {H : Heap} {f : Nat → Option Text} {s : Text × Sym} (rest : List (Text × Sym))
    (h : ¬ ∃ id, Shown H s id) : dumpAll H f (s :: rest) = dumpAll H f rest := by
  obtain ⟨key, s⟩ := s
  simp only [dumpAll, (skipped_iff H _).2 h, if_true]

theorem assoc_value (t h a v b : Text) (c : Text) : t ++ h ++ a ++ v ++ b ++ c = t ++ (h ++ a ++ v ++ b) ++ c := by
  simp only [List.append_assoc]

theorem assoc_null (t h a : Text) (c : Text) : t ++ h ++ a ++ c = t ++ (h ++ a) ++ c := by
  simp only [List.append_assoc]

theorem assoc_object (t h o n b c : Text) : t ++ h ++ (o ++ n) ++ b ++ t ++ c ++ n = t ++ (h ++ o) ++ n ++ b ++ (t ++ c ++ n) := by
  simp only [List.append_assoc]

theorem open_text : " {\n".toList = " {".toList ++ ['\n'] := by decide +kernel

theorem page_object (n : Nat) (h : Text) (parts : Forest) :
    page n (Tree.object h parts).lines
      = tabs n ++ (h ++ " {".toList) ++ ['\n'] ++ page (n + 1) parts.lines ++ (tabs n ++ "}".toList ++ ['\n']) := by
  rw [Tree.lines, show ∀ (a : Nat × Text) (l b : List (Nat × Text)), a :: l ++ b = [a] ++ l ++ b from fun _ _ _ => rfl,
    page_append, page_append, page_one, page_one, page_deeper]

/-- The text of an object whose depth suffices is that of a tree of the object. -/
theorem dump_sound (H : Heap) : ∀ (fuel id indent : Nat) (text : Text), dump H fuel id indent = some text →
    ∃ tree, Unfolds H id tree ∧ text ++ ['\n'] = page indent tree.lines := by
  intro fuel
  induction fuel with
  | zero => intro id indent text h; cases h
  | succ fuel ih =>
    intro id indent text h
    rw [dump] at h
    split at h
    · rename_i t hk
      obtain ⟨tree, h1, h2⟩ := ih _ _ _ h
      exact ⟨tree, .refers hk h1, h2⟩
    · rename_i v hk
      refine ⟨_, .value hk, ?_⟩
      rw [Tree.lines, page_one, ← Option.some.inj h, heading_eq]
      exact assoc_value _ _ _ _ _ _
    · rename_i hk
      refine ⟨_, .null hk, ?_⟩
      rw [Tree.lines, page_one, ← Option.some.inj h, heading_eq]
      exact assoc_null _ _ _ _
    · rename_i symbols hk
      have hall : ∀ (ss : List (Text × Sym)) (body : Text),
          dumpAll H (fun t => dump H fuel t (indent + 1)) ss = some body →
          ∃ parts, UnfoldsAll H ss parts ∧ body = page (indent + 1) parts.lines := by
        intro ss
        induction ss with
        | nil =>
          intro body hb
          exact ⟨.nil, .nil, (Option.some.inj hb).symm⟩
        | cons s ss ih2 =>
          intro body hb
          by_cases hs : ∃ i, Shown H s i
          · obtain ⟨i, hs⟩ := hs
            rw [dumpAll_shown ss hs] at hb
            split at hb
            · rename_i x y hx hy
              obtain ⟨tree, h1, h2⟩ := ih _ _ _ hx
              obtain ⟨parts, h3, h4⟩ := ih2 _ hy
              refine ⟨.cons tree parts, .shown hs h1 h3, ?_⟩
              rw [Forest.lines, page_append, ← h2, ← h4, ← Option.some.inj hb]
              simp only [List.append_assoc, List.singleton_append]
            · cases hb
          · rw [dumpAll_hidden ss hs] at hb
            obtain ⟨parts, h3, h4⟩ := ih2 _ hb
            exact ⟨parts, .hidden hs h3, h4⟩
      split at h
      · rename_i body hb
        obtain ⟨parts, h3, h4⟩ := hall _ _ hb
        refine ⟨_, .full hk h3, ?_⟩
        rw [page_object, ← Option.some.inj h, ← h4, open_text, heading_eq]
        exact assoc_object _ _ _ _ _ _
      · cases h

/-- More depth does not change a text. -/
theorem dump_mono (H : Heap) : ∀ (fuel more id indent : Nat) (text : Text), dump H fuel id indent = some text →
    dump H (fuel + more) id indent = some text := by
  intro fuel
  induction fuel with
  | zero => intro more id indent text h; cases h
  | succ fuel ih =>
    intro more id indent text h
    rw [show fuel + 1 + more = (fuel + more) + 1 by omega]
    have hall : ∀ (ss : List (Text × Sym)) (body : Text),
        dumpAll H (fun t => dump H fuel t (indent + 1)) ss = some body →
        dumpAll H (fun t => dump H (fuel + more) t (indent + 1)) ss = some body := by
      intro ss
      induction ss with
      | nil => intro body hb; exact hb
      | cons s ss ih2 =>
        intro body hb
        by_cases hs : ∃ i, Shown H s i
        · obtain ⟨i, hs⟩ := hs
          rw [dumpAll_shown ss hs] at hb ⊢
          split at hb
          · rename_i x y hx hy
            rw [ih more _ _ _ hx, ih2 _ hy]
            exact hb
          · cases hb
        · rw [dumpAll_hidden ss hs] at hb ⊢
          exact ih2 _ hb
    cases hk : (H id).kind with
    | refers t => simp only [dump, hk] at h ⊢; exact ih more _ _ _ h
    | value v => simp only [dump, hk] at h ⊢; exact h
    | null => simp only [dump, hk] at h ⊢; exact h
    | full symbols =>
      cases hb : dumpAll H (fun t => dump H fuel t (indent + 1)) symbols with
      | none => simp only [dump, hk, hb] at h; cases h
      | some body =>
        simp only [dump, hk, hb] at h
        simp only [dump, hk, hall _ _ hb]
        exact h

theorem dumpAll_mono (H : Heap) (fuel more indent : Nat) : ∀ (ss : List (Text × Sym)) (body : Text),
    dumpAll H (fun t => dump H fuel t indent) ss = some body →
    dumpAll H (fun t => dump H (more + fuel) t indent) ss = some body := by
  intro ss
  induction ss with
  | nil => intro body hb; exact hb
  | cons s ss ih =>
    intro body hb
    by_cases hs : ∃ i, Shown H s i
    · obtain ⟨i, hs⟩ := hs
      rw [dumpAll_shown ss hs] at hb ⊢
      split at hb
      · rename_i x y hx hy
        rw [Nat.add_comm more fuel, dump_mono H fuel more _ _ _ hx, ← Nat.add_comm more fuel, ih _ hy]
        exact hb
      · cases hb
    · rw [dumpAll_hidden ss hs] at hb ⊢
      exact ih _ hb

mutual
/-- For every tree of an object a depth suffices. -/
theorem dump_complete {H : Heap} {id : Nat} {tree : Tree} : Unfolds H id tree → ∀ indent,
    ∃ fuel text, dump H fuel id indent = some text ∧ text ++ ['\n'] = page indent tree.lines
  | .refers hk h, indent => by
    obtain ⟨fuel, text, h1, h2⟩ := dump_complete h indent
    exact ⟨fuel + 1, text, by simp only [dump, hk]; exact h1, h2⟩
  | .value hk, indent => by
    refine ⟨1, _, by simp only [dump, hk]; rfl, ?_⟩
    rw [Tree.lines, page_one, heading_eq]
    exact assoc_value _ _ _ _ _ _
  | .null hk, indent => by
    refine ⟨1, _, by simp only [dump, hk]; rfl, ?_⟩
    rw [Tree.lines, page_one, heading_eq]
    exact assoc_null _ _ _ _
  | .full hk h, indent => by
    obtain ⟨fuel, body, h1, h2⟩ := dumpAll_complete h (indent + 1)
    refine ⟨fuel + 1, _, by simp only [dump, hk, h1]; rfl, ?_⟩
    rw [page_object, ← h2, open_text, heading_eq]
    exact assoc_object _ _ _ _ _ _
theorem dumpAll_complete {H : Heap} {ss : List (Text × Sym)} {parts : Forest} : UnfoldsAll H ss parts → ∀ indent,
    ∃ fuel body, dumpAll H (fun t => dump H fuel t indent) ss = some body ∧ body = page indent parts.lines
  | .nil, _ => ⟨0, [], rfl, rfl⟩
  | .hidden hs h, indent => by
    obtain ⟨fuel, body, h1, h2⟩ := dumpAll_complete h indent
    exact ⟨fuel, body, by rw [dumpAll_hidden _ hs]; exact h1, h2⟩
  | .shown hs ht h, indent => by
    obtain ⟨f1, x, h1, h2⟩ := dump_complete ht indent
    obtain ⟨f2, y, h3, h4⟩ := dumpAll_complete h indent
    refine ⟨f1 + f2, x ++ '\n' :: y, ?_, ?_⟩
    · rw [dumpAll_shown _ hs, dump_mono H f1 f2 _ _ _ h1, dumpAll_mono H f2 f1 _ _ _ h3]
    · rw [Forest.lines, page_append, ← h2, ← h4]
      simp only [List.append_assoc, List.singleton_append]
end

/-- A text needs the texts of all objects that are shown in it. -/
theorem acc_of_dump (H : Heap) : ∀ (fuel id indent : Nat) (text : Text), dump H fuel id indent = some text →
    Acc (Needs H) id := by
  intro fuel
  induction fuel with
  | zero => intro id indent text h; cases h
  | succ fuel ih =>
    intro id indent text h
    refine Acc.intro id (fun t ht => ?_)
    rcases ht with hk | ⟨symbols, hk, s, hs, hsh⟩
    · simp only [dump, hk] at h
      exact ih _ _ _ h
    · cases hb : dumpAll H (fun t => dump H fuel t (indent + 1)) symbols with
      | none => simp only [dump, hk, hb] at h; cases h
      | some body =>
        have hall : ∀ (ss : List (Text × Sym)) (body : Text),
            dumpAll H (fun t => dump H fuel t (indent + 1)) ss = some body → s ∈ ss →
            ∃ x, dump H fuel t (indent + 1) = some x := by
          intro ss
          induction ss with
          | nil => intro _ _ hm; cases hm
          | cons s' ss ih2 =>
            intro body hb hm
            by_cases hs' : ∃ i, Shown H s' i
            · obtain ⟨i, hs'⟩ := hs'
              rw [dumpAll_shown ss hs'] at hb
              split at hb
              · rename_i x y hx hy
                rcases List.mem_cons.1 hm with rfl | hm
                · have : i = t := Sym.object.inj (hs'.1.symm.trans hsh.1)
                  subst this
                  exact ⟨x, hx⟩
                · exact ih2 _ hy hm
              · cases hb
            · rw [dumpAll_hidden ss hs'] at hb
              rcases List.mem_cons.1 hm with rfl | hm
              · exact absurd ⟨t, hsh⟩ hs'
              · exact ih2 _ hb hm
        obtain ⟨x, hx⟩ := hall _ _ hb hs
        exact ih _ _ _ hx

theorem unfolds_of_acc {H : Heap} {id : Nat} (h : Acc (Needs H) id) : ∃ tree, Unfolds H id tree := by
  induction h with
  | intro id _ ih =>
    cases hk : (H id).kind with
    | refers t =>
      obtain ⟨tree, h1⟩ := ih t (Or.inl hk)
      exact ⟨tree, .refers hk h1⟩
    | value v => exact ⟨_, .value hk⟩
    | null => exact ⟨_, .null hk⟩
    | full symbols =>
      have hall : ∀ ss : List (Text × Sym), (∀ s ∈ ss, s ∈ symbols) → ∃ parts, UnfoldsAll H ss parts := by
        intro ss
        induction ss with
        | nil => intro _; exact ⟨_, .nil⟩
        | cons s ss ih2 =>
          intro hsub
          obtain ⟨parts, hp⟩ := ih2 (fun s' hs' => hsub s' (List.mem_cons_of_mem _ hs'))
          by_cases hs : ∃ i, Shown H s i
          · obtain ⟨i, hs⟩ := hs
            obtain ⟨tree, ht⟩ := ih i (Or.inr ⟨symbols, hk, s, hsub s (List.mem_cons_self ..), hs⟩)
            exact ⟨_, .shown hs ht hp⟩
          · exact ⟨_, .hidden hs hp⟩
      obtain ⟨parts, hp⟩ := hall symbols (fun _ h => h)
      exact ⟨_, .full hk hp⟩

theorem not_cyclic {α : Type} {r : α → α → Prop} {a : α} (h : Acc r a) : ¬ Relation.TransGen r a a := by
  have h' := h.transGen
  induction h' with
  | intro a _ ih => intro hc; exact ih a hc h hc

/-! ## C181 -/

/-- The text of an object is the page of the tree of the object: one line for every value and for every variable that refers to nothing, an object
between braces with what it consists of one step further to the right, in the order of the names.  It is given exactly if the object has such
a tree. -/
theorem text_of_object_partial (H : Heap) (id indent : Nat) (text : Text) :
    (∃ fuel, dump H fuel id indent = some text) ↔
    ∃ tree, Unfolds H id tree ∧ text ++ ['\n'] = page indent tree.lines := by
  constructor
  · rintro ⟨fuel, h⟩
    exact dump_sound H fuel id indent text h
  · rintro ⟨tree, h1, h2⟩
    obtain ⟨fuel, text', h3, h4⟩ := dump_complete h1 indent
    have : text = text' := List.append_cancel_right (h2.trans h4.symm)
    exact ⟨fuel, by rw [this]; exact h3⟩

/-- `ToString` comes back exactly for the objects from which there is no endless way along variables and symbols that are shown. -/
theorem text_ends_iff_partial (H : Heap) (id indent : Nat) :
    (∃ fuel text, dump H fuel id indent = some text) ↔ Acc (Needs H) id := by
  constructor
  · rintro ⟨fuel, text, h⟩
    exact acc_of_dump H fuel id indent text h
  · intro h
    obtain ⟨tree, ht⟩ := unfolds_of_acc h
    obtain ⟨fuel, text, h1, _⟩ := dump_complete ht indent
    exact ⟨fuel, text, h1⟩

/-- **Refuted**: the text of an object ends.  It does not if the object, or one it consists of, is part of itself: an uncaught exception with such a
value ends the program with a stack overflow instead of a report. -/
theorem cyclic_refuted (H : Heap) (id c : Nat) (hc : Relation.TransGen (Needs H) c c)
    (hr : c = id ∨ Relation.TransGen (Needs H) c id) (fuel indent : Nat) : dump H fuel id indent = none := by
  cases h : dump H fuel id indent with
  | none => rfl
  | some text =>
    have ha := acc_of_dump H fuel id indent text h
    rcases hr with rfl | hr
    · exact absurd hc (not_cyclic ha)
    · have hb : Acc (Relation.TransGen (Needs H)) c := ha.transGen.inv hr
      have hb' : Acc (Needs H) c :=
        Subrelation.accessible (fun h => Relation.TransGen.single h) hb
      exact absurd hc (not_cyclic hb')

/-! ### Examples -/

/-- `class Node { Node next; string value; }` with a variable (0), an object (1) and its members (2, 3); 4 is another object. -/
def nodes (next : Kind) : Heap
  | 0 => { type := "Node".toList, name := "n".toList, mutability := "modify".toList, kind := .refers 1 }
  | 1 => { type := "Node".toList, name := "<anonymous>".toList, mutability := "modify".toList,
           kind := .full [("next".toList, .object 2), ("this".toList, .object 1), ("toText".toList, .other), ("value".toList, .object 3)] }
  | 2 => { type := "Node".toList, name := "next".toList, mutability := "modify".toList, kind := next }
  | 3 => { type := "string".toList, name := "value".toList, mutability := "modify".toList, kind := .value "hi".toList }
  | _ => { type := "Node".toList, name := "<anonymous>".toList, mutability := "modify".toList, kind := .full [] }

example : dump (nodes .null) 3 0 0
    = some "Node <anonymous> modify {\n\tNode next modify = null\n\tstring value modify = 'hi'\n}".toList := by
  decide +kernel

/-- A node whose `next` is itself. -/
example (fuel indent : Nat) : dump (nodes (.refers 1)) fuel 0 indent = none := by
  have h12 : Needs (nodes (.refers 1)) 2 1 :=
    Or.inr ⟨_, rfl, ("next".toList, .object 2), by decide +kernel, rfl, by decide +kernel, by decide +kernel⟩
  have h21 : Needs (nodes (.refers 1)) 1 2 := Or.inl rfl
  have h10 : Needs (nodes (.refers 1)) 1 0 := Or.inl rfl
  exact cyclic_refuted _ 0 1 (.tail (.single h21) h12) (Or.inr (.single h10)) fuel indent

/-- **Refuted**: every member is shown with its name.  A member that refers to an object is shown with the name of that object, which is
`<anonymous>` for everything made by `new` (`AST/TreeInterpreter.cpp:351`). -/
theorem member_name_refuted : dump (nodes (.refers 4)) 4 0 0
    = some "Node <anonymous> modify {\n\tNode <anonymous> modify {\n\t}\n\tstring value modify = 'hi'\n}".toList ∧
    ¬ "next".toList <:+: "Node <anonymous> modify {\n\tNode <anonymous> modify {\n\t}\n\tstring value modify = 'hi'\n}".toList := by
  constructor
  · decide +kernel
  · decide +kernel

/-- An object of a class that extends `Exception`: the members it inherits are in an object that is defined as `base`, but has the name `this`
(`VirtualMachine/Repository.cpp:292-296`). -/
def derived : Heap
  | 0 => { type := "MyException".toList, name := "<anonymous>".toList, mutability := "modify".toList,
           kind := .full [("base".toList, .object 1), ("code".toList, .object 3), ("this".toList, .object 0)] }
  | 1 => { type := "Exception".toList, name := "this".toList, mutability := "modify".toList, kind := .full [("mText".toList, .object 2)] }
  | 2 => { type := "string".toList, name := "mText".toList, mutability := "modify".toList, kind := .value "disk full".toList }
  | _ => { type := "int".toList, name := "code".toList, mutability := "modify".toList, kind := .value "5".toList }

/-- The same objects, but the object `id` has only these symbols. -/
def withSymbols (H : Heap) (id : Nat) (symbols : List (Text × Sym)) : Heap :=
  fun i => if i = id then { H i with kind := .full symbols } else H i

theorem skipped_withSymbols (H : Heap) (id : Nat) (symbols : List (Text × Sym)) (s : Text × Sym) :
    skipped (withSymbols H id symbols) s = skipped H s := by
  obtain ⟨key, s⟩ := s
  cases s with
  | other => rfl
  | object i =>
    have : (withSymbols H id symbols i).name = (H i).name := by
      unfold withSymbols; split <;> rfl
    simp only [skipped, this]

theorem dumpAll_withSymbols (H : Heap) (id : Nat) (symbols : List (Text × Sym)) (f : Nat → Option Text) :
    ∀ ss, dumpAll (withSymbols H id symbols) f ss = dumpAll H f ss := by
  intro ss
  induction ss with
  | nil => rfl
  | cons s ss ih =>
    obtain ⟨key, s⟩ := s
    simp only [dumpAll, skipped_withSymbols, ih]

/-- **Refuted**: the inherited members are shown.  What an object inherits can be taken away without a change of any text. -/
theorem inherited_refuted (H : Heap) (id base : Nat) (before after : List (Text × Sym))
    (hk : (H id).kind = .full (before ++ ("base".toList, .object base) :: after)) (hb : (H base).name = "this".toList) :
    ∀ fuel i indent, dump H fuel i indent = dump (withSymbols H id (before ++ after)) fuel i indent := by
  have hs : ¬ ∃ i, Shown H ("base".toList, Sym.object base) i := by
    rintro ⟨i, h1, _, h3⟩
    have : i = base := (Sym.object.inj h1).symm
    subst this
    exact h3 hb
  have hall : ∀ (f : Nat → Option Text) (b : List (Text × Sym)),
      dumpAll H f (b ++ ("base".toList, .object base) :: after) = dumpAll H f (b ++ after) := by
    intro f b
    induction b with
    | nil => exact dumpAll_hidden after hs
    | cons s b ih =>
      by_cases h : ∃ i, Shown H s i
      · obtain ⟨i, h⟩ := h
        rw [List.cons_append, List.cons_append, dumpAll_shown _ h, dumpAll_shown _ h, ih]
      · rw [List.cons_append, List.cons_append, dumpAll_hidden _ h, dumpAll_hidden _ h, ih]
  intro fuel
  induction fuel with
  | zero => intro i indent; rfl
  | succ fuel ih =>
    intro i indent
    by_cases hi : i = id
    · subst hi
      have hk' : (withSymbols H i (before ++ after) i).kind = .full (before ++ after) := by simp [withSymbols]
      have hh : (withSymbols H i (before ++ after) i).heading = (H i).heading := by simp [withSymbols, Obj.heading]
      simp only [dump, hk, hk', hh, hall, dumpAll_withSymbols, ih]
    · have he : withSymbols H id (before ++ after) i = H i := by simp [withSymbols, hi]
      simp only [dump, he, dumpAll_withSymbols, ih]

example : (derived 0).kind = .full ([] ++ ("base".toList, .object 1) :: [("code".toList, .object 3), ("this".toList, .object 0)]) ∧
    (derived 1).name = "this".toList := ⟨rfl, rfl⟩

example : dump derived 2 0 0 = some "MyException <anonymous> modify {\n\tint code modify = '5'\n}".toList := by decide +kernel

end Verif.Dump
