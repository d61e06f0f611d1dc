import Verif.Whole.Props

/-! # Commands that fail, and commands that never end -/

namespace Verif.Whole

open Verif.Str (Text)
open Verif.Calc (Num Cond Val value truth)
open Verif.Interp (Value Prog)
open Verif.Interp.Sim (Never EvalHangs ArgsHangs ListHangs ExecHangs WhileHangs ForHangs eval_refines exec_refines list_refines)
open Verif.Interp.Spec (State Eval ExecList Exec Comp findBlock)

/-! ## About the meaning of commands -/

theorem Does.append {p : Program} {vs ws : Vars} {cs : List Cmd} {out : List Line} {d : End} (h : Does p vs cs out ws d) :
    (d = .next → ∀ {cs' out' vs' e}, Does p ws cs' out' vs' e → Does p vs (cs ++ cs') (out ++ out') vs' e) ∧
      (d ≠ .next → ∀ cs', Does p vs (cs ++ cs') out ws d) := by
  induction h with
  | done => exact ⟨fun _ _ _ _ _ h => h, fun h => absurd rfl h⟩
  | int hv _ ih => exact ⟨fun hd _ _ _ _ h => .int hv (ih.1 hd h), fun hd cs' => .int hv (ih.2 hd cs')⟩
  | bool hv _ ih => exact ⟨fun hd _ _ _ _ h => .bool hv (ih.1 hd h), fun hd cs' => .bool hv (ih.2 hd cs')⟩
  | set hv _ ih => exact ⟨fun hd _ _ _ _ h => .set hv (ih.1 hd h), fun hd cs' => .set hv (ih.2 hd cs')⟩
  | fresh _ ih => exact ⟨fun hd _ _ _ _ h => .fresh (ih.1 hd h), fun hd cs' => .fresh (ih.2 hd cs')⟩
  | check hv _ ih => exact ⟨fun hd _ _ _ _ h => .check hv (ih.1 hd h), fun hd cs' => .check hv (ih.2 hd cs')⟩
  | mark hv _ ih => exact ⟨fun hd _ _ _ _ h => .mark hv (ih.1 hd h), fun hd cs' => .mark hv (ih.2 hd cs')⟩
  | call h1 h2 h3 h4 h5 _ _ ih =>
    exact ⟨fun hd _ _ _ _ h => by rw [List.append_assoc, List.append_assoc]; exact .call h1 h2 h3 h4 h5 (ih.1 hd h),
      fun hd cs' => .call h1 h2 h3 h4 h5 (ih.2 hd cs')⟩
  | callRet h1 h2 h3 h4 _ => exact ⟨nofun, fun _ _ => .callRet h1 h2 h3 h4⟩
  | act h1 h2 h3 h4 h5 h6 _ _ ih =>
    exact ⟨fun hd _ _ _ _ h => by rw [List.append_assoc]; exact .act h1 h2 h3 h4 h5 h6 (ih.1 hd h),
      fun hd cs' => .act h1 h2 h3 h4 h5 h6 (ih.2 hd cs')⟩
  | print hv _ ih => exact ⟨fun hd _ _ _ _ h => .print hv (ih.1 hd h), fun hd cs' => .print hv (ih.2 hd cs')⟩
  | say hv _ ih => exact ⟨fun hd _ _ _ _ h => .say hv (ih.1 hd h), fun hd cs' => .say hv (ih.2 hd cs')⟩
  | text hv _ ih => exact ⟨fun hd _ _ _ _ h => .text hv (ih.1 hd h), fun hd cs' => .text hv (ih.2 hd cs')⟩
  | write hv _ ih => exact ⟨fun hd _ _ _ _ h => .write hv (ih.1 hd h), fun hd cs' => .write hv (ih.2 hd cs')⟩
  | whenTrue hv _ ih => exact ⟨fun hd _ _ _ _ h => .whenTrue hv (ih.1 hd h), fun hd cs' => .whenTrue hv (ih.2 hd cs')⟩
  | whenFalse hv _ ih => exact ⟨fun hd _ _ _ _ h => .whenFalse hv (ih.1 hd h), fun hd cs' => .whenFalse hv (ih.2 hd cs')⟩
  | chooseTrue hv _ ih => exact ⟨fun hd _ _ _ _ h => .chooseTrue hv (ih.1 hd h), fun hd cs' => .chooseTrue hv (ih.2 hd cs')⟩
  | chooseFalse hv _ ih => exact ⟨fun hd _ _ _ _ h => .chooseFalse hv (ih.1 hd h), fun hd cs' => .chooseFalse hv (ih.2 hd cs')⟩
  | chainTrue hv _ ih => exact ⟨fun hd _ _ _ _ h => .chainTrue hv (ih.1 hd h), fun hd cs' => .chainTrue hv (ih.2 hd cs')⟩
  | chainFalse hv _ ih => exact ⟨fun hd _ _ _ _ h => .chainFalse hv (ih.1 hd h), fun hd cs' => .chainFalse hv (ih.2 hd cs')⟩
  | pick hv hc hb he _ _ ih =>
    exact ⟨fun hd _ _ _ _ h => by rw [List.append_assoc]; exact .pick hv hc hb he (ih.1 hd h), fun hd cs' => .pick hv hc hb he (ih.2 hd cs')⟩
  | pickLeft hv hc hb h1 h2 _ => exact ⟨fun hd => absurd hd h1, fun _ _ => .pickLeft hv hc hb h1 h2⟩
  | loopEnd hv _ ih => exact ⟨fun hd _ _ _ _ h => .loopEnd hv (ih.1 hd h), fun hd cs' => .loopEnd hv (ih.2 hd cs')⟩
  | loopNext hv hb he _ _ ih =>
    exact ⟨fun hd _ _ _ _ h => by rw [List.append_assoc]; exact .loopNext hv hb he (ih.1 hd h), fun hd cs' => .loopNext hv hb he (ih.2 hd cs')⟩
  | loopBreak hv hb _ _ ih =>
    exact ⟨fun hd _ _ _ _ h => by rw [List.append_assoc]; exact .loopBreak hv hb (ih.1 hd h), fun hd cs' => .loopBreak hv hb (ih.2 hd cs')⟩
  | loopReturn hv hb _ => exact ⟨nofun, fun _ _ => .loopReturn hv hb⟩
  | loopLeft hv hb _ => exact ⟨nofun, fun _ _ => .loopLeft hv hb⟩
  | count hv hb _ _ ih =>
    exact ⟨fun hd _ _ _ _ h => by rw [List.append_assoc]; exact .count hv hb (ih.1 hd h), fun hd cs' => .count hv hb (ih.2 hd cs')⟩
  | countLeft hv hb he _ => exact ⟨fun hd => absurd hd he, fun _ _ => .countLeft hv hb he⟩
  | roundsEnd hv _ ih => exact ⟨fun hd _ _ _ _ h => .roundsEnd hv (ih.1 hd h), fun hd cs' => .roundsEnd hv (ih.2 hd cs')⟩
  | roundsNext hv hb he hs _ _ ih =>
    exact ⟨fun hd _ _ _ _ h => by rw [List.append_assoc]; exact .roundsNext hv hb he hs (ih.1 hd h),
      fun hd cs' => .roundsNext hv hb he hs (ih.2 hd cs')⟩
  | roundsBreak hv hb _ _ ih =>
    exact ⟨fun hd _ _ _ _ h => by rw [List.append_assoc]; exact .roundsBreak hv hb (ih.1 hd h),
      fun hd cs' => .roundsBreak hv hb (ih.2 hd cs')⟩
  | roundsReturn hv hb _ => exact ⟨nofun, fun _ _ => .roundsReturn hv hb⟩
  | roundsLeft hv hb _ => exact ⟨nofun, fun _ _ => .roundsLeft hv hb⟩
  | block hb _ _ ih =>
    exact ⟨fun hd _ _ _ _ h => by rw [List.append_assoc]; exact .block hb (ih.1 hd h), fun hd cs' => .block hb (ih.2 hd cs')⟩
  | blockLeft hb he _ => exact ⟨fun hd => absurd hd he, fun _ _ => .blockLeft hb he⟩
  | brk => exact ⟨nofun, fun _ _ => .brk⟩
  | cont => exact ⟨nofun, fun _ _ => .cont⟩
  | ret hv => exact ⟨nofun, fun _ _ => .ret hv⟩
  | leave => exact ⟨nofun, fun _ _ => .leave⟩

/-- Only the first command matters if it fails. -/
theorem Wrong.more {p : Program} {vs : Vars} {c : Cmd} (h : Wrong p vs [c]) (cs : List Cmd) : Wrong p vs (c :: cs) := by
  cases h with
  | int h => exact .int h
  | bool h => exact .bool h
  | set h => exact .set h
  | check h => exact .check h
  | mark h => exact .mark h
  | arg h => exact .arg h
  | call h1 h2 h3 h4 => exact .call h1 h2 h3 h4
  | actArg h => exact .actArg h
  | act h1 h2 h3 h4 => exact .act h1 h2 h3 h4
  | print h => exact .print h
  | say h => exact .say h
  | text h => exact .text h
  | write h => exact .write h
  | whenCond h => exact .whenCond h
  | whenTrue h1 h2 => exact .whenTrue h1 h2
  | chooseCond h => exact .chooseCond h
  | chooseTrue h1 h2 => exact .chooseTrue h1 h2
  | chooseFalse h1 h2 => exact .chooseFalse h1 h2
  | chainCond h => exact .chainCond h
  | chainTrue h1 h2 => exact .chainTrue h1 h2
  | chainFalse h1 h2 => exact .chainFalse h1 h2
  | pickNum h => exact .pickNum h
  | pickLabel h1 h2 => exact .pickLabel h1 h2
  | pick h1 h2 h3 => exact .pick h1 h2 h3
  | loopCond h => exact .loopCond h
  | loopBody h1 h2 => exact .loopBody h1 h2
  | loopNext h1 h2 h3 h4 => exact .loopNext h1 h2 h3 h4
  | countStart h => exact .countStart h
  | count h1 h2 => exact .count h1 h2
  | roundsCond h => exact .roundsCond h
  | roundsBody h1 h2 => exact .roundsBody h1 h2
  | roundsStep h1 h2 h3 h4 => exact .roundsStep h1 h2 h3 h4
  | roundsNext h1 h2 h3 h4 h5 => exact .roundsNext h1 h2 h3 h4 h5
  | block h => exact .block h
  | ret h => exact .ret h
  | later _ h => cases h

/-- The commands neither end nor fail. -/
def Stays (p : Program) (vs : Vars) (cs : List Cmd) : Prop := (∀ out ws e, ¬ Does p vs cs out ws e) ∧ ¬ Wrong p vs cs

theorem Stays.split {p : Program} {vs : Vars} {c : Cmd} {cs : List Cmd} (h : Stays p vs (c :: cs)) :
    Stays p vs [c] ∨ ∃ out ws, Does p vs [c] out ws .next ∧ Stays p ws cs := by
  by_cases hd : ∃ out ws e, Does p vs [c] out ws e
  · obtain ⟨out, ws, e, hd⟩ := hd
    by_cases he : e = .next
    · subst he
      exact .inr ⟨out, ws, hd, fun out' vs' e' h' => h.1 _ _ _ (hd.append.1 rfl h'), fun h' => h.2 (.later hd h')⟩
    · exact absurd (hd.append.2 he cs) (h.1 _ _ _)
  · exact .inl ⟨fun out ws e h => hd ⟨out, ws, e, h⟩, fun hw => h.2 (hw.more cs)⟩

/-! ## One command -/

/-- The first command ends, and the state is ready for the others. -/
theorem first {p : Program} {G : Prog Val} (hp : WellFormed p) (hG : Serves p G) {vs ws : Vars} {c : Cmd} {cs : List Cmd} {out : List Line}
    {r : Give} {l : Around} {g : List (Text × Kind)} {Γ : Ctx} {code : List (Interp.Stmt Val)} {σ : State Val} (hd : Does p vs [c] out ws .next)
    (hf : Fits p r l (g :: Γ) (c :: cs)) (hc : Code (g :: Γ) (c :: cs) code) (ha : At (g :: Γ) vs σ) :
    ∃ st b g' σ', code = st :: b ∧ Exec prim G Never none σ st .normal σ' ∧ Fits p r l (g' :: Γ) cs ∧ Code (g' :: Γ) cs b ∧ At (g' :: Γ) ws σ' := by
  have key : ∀ st b, Code (g :: Γ) [c] [st] → Fits p r l (g :: Γ) [c] → code = st :: b → Fits p r l (grow g [c] :: Γ) cs →
      Code (grow g [c] :: Γ) cs b → ∃ st b g' σ', code = st :: b ∧ Exec prim G Never none σ st .normal σ' ∧ Fits p r l (g' :: Γ) cs ∧
        Code (g' :: Γ) cs b ∧ At (g' :: Γ) ws σ' := by
    intro st b h1 h2 h3 h4 h5
    obtain ⟨σ', g', i1, i2, i3⟩ := simulates hp hG hd h2 h1 ha
    cases i3 rfl
    refine ⟨st, b, _, σ', h3, ?_, h4, h5, i2.at nofun⟩
    cases i1 with
    | cons j1 j2 => cases j2; exact j1
    | jump _ j2 => exact absurd rfl j2
  cases hc with
  | int hx hb => cases hf with | int h1 h2 h3 h4 hf => exact key _ _ (.int hx .nil) (.int h1 h2 h3 h4 .nil) rfl hf hb
  | bool hx hb => cases hf with | bool h1 h2 h3 h4 hf => exact key _ _ (.bool hx .nil) (.bool h1 h2 h3 h4 .nil) rfl hf hb
  | set hx hb => cases hf with | set h1 h2 hf => exact key _ _ (.set hx .nil) (.set h1 h2 .nil) rfl hf hb
  | fresh hb => cases hf with | fresh h1 h2 hf => exact key _ _ (.fresh .nil) (.fresh h1 h2 .nil) rfl hf hb
  | check hx hb => cases hf with | check h1 hf => exact key _ _ (.check hx .nil) (.check h1 .nil) rfl hf hb
  | mark hx hb => cases hf with | mark h1 h2 hf => exact key _ _ (.mark hx .nil) (.mark h1 h2 .nil) rfl hf hb
  | call hx hy hb =>
    cases hf with
    | call h1 h2 h3 h4 h5 hf =>
      cases h1 with
      | set h1 => cases hy; exact key _ _ (.call hx .set .nil) (.call (.set h1) h2 h3 h4 h5 .nil) rfl hf hb
      | new h1 h6 h7 => cases hy; exact key _ _ (.call hx .new .nil) (.call (.new h1 h6 h7) h2 h3 h4 h5 .nil) rfl hf hb
      | print => cases hy; exact key _ _ (.call hx .print .nil) (.call .print h2 h3 h4 h5 .nil) rfl hf hb
      | ret => cases hy; exact key _ _ (.call hx .ret .nil) (.call .ret h2 h3 h4 h5 .nil) rfl hf hb
  | act hx hb => cases hf with | act h1 h2 h3 hf => exact key _ _ (.act hx .nil) (.act h1 h2 h3 .nil) rfl hf hb
  | print hx hb => cases hf with | print h1 hf => exact key _ _ (.print hx .nil) (.print h1 .nil) rfl hf hb
  | say hx hb => cases hf with | say h1 h2 hf => exact key _ _ (.say hx .nil) (.say h1 h2 .nil) rfl hf hb
  | text hx hb =>
    cases hf with
    | text h1 h2 h3 h4 h5 hf => exact key _ _ (.text hx .nil) (.text h1 h2 h3 h4 h5 .nil) rfl hf hb
  | write hx hb => cases hf with | write h1 h2 h3 hf => exact key _ _ (.write hx .nil) (.write h1 h2 h3 .nil) rfl hf hb
  | «when» hx ht hb => cases hf with | «when» h1 h2 hf => exact key _ _ (.when hx ht .nil) (.when h1 h2 .nil) rfl hf hb
  | choose hx ht hu hb => cases hf with | choose h1 h2 h3 hf => exact key _ _ (.choose hx ht hu .nil) (.choose h1 h2 h3 .nil) rfl hf hb
  | chain hx ht hu hb => cases hf with | chain h1 h2 h3 h4 hf => exact key _ _ (.chain hx ht hu .nil) (.chain h1 h2 h3 h4 .nil) rfl hf hb
  | pick hx hl hn hcs hdb hb =>
    cases hf with
    | pick h1 h2 h3 h4 h5 h6 hf => exact key _ _ (.pick hx hl hn hcs hdb .nil) (.pick h1 h2 h3 h4 h5 h6 .nil) rfl hf hb
  | loop hx ht hb => cases hf with | loop h1 h2 hf => exact key _ _ (.loop hx ht .nil) (.loop h1 h2 .nil) rfl hf hb
  | count hx hy hz ht hb =>
    cases hf with
    | count h1 h2 h3 h4 h5 h6 h7 hf => exact key _ _ (.count hx hy hz ht .nil) (.count h1 h2 h3 h4 h5 h6 h7 .nil) rfl hf hb
  | block ht hb => cases hf with | block h2 hf => exact key _ _ (.block ht .nil) (.block h2 .nil) rfl hf hb
  | brk hb => cases hf with | brk h hf => exact key _ _ (.brk .nil) (.brk h .nil) rfl hf hb
  | cont hb => cases hf with | cont h hf => exact key _ _ (.cont .nil) (.cont h .nil) rfl hf hb
  | ret hx hb => cases hf with | ret h1 hf => exact key _ _ (.ret hx .nil) (.ret h1 .nil) rfl hf hb
  | leave hb => cases hf with | leave hf => exact key _ _ (.leave .nil) (.leave .nil) rfl hf hb

/-- Commands leave the blocks around them. -/
theorem shape {p : Program} {G : Prog Val} (hp : WellFormed p) (hG : Serves p G) {vs ws : Vars} {cs : List Cmd} {out : List Line} {e : End}
    {r : Give} {l : Around} {g : List (Text × Kind)} {Γ : Ctx} {code : List (Interp.Stmt Val)} {σ : State Val} (hd : Does p vs cs out ws e)
    (hf : Fits p r l (g :: Γ) cs) (hc : Code (g :: Γ) cs code) (ha : At (g :: Γ) vs σ) : ∃ v us, ws = v :: us := by
  obtain ⟨_, _, -, h, -⟩ := simulates hp hG hd hf hc ha
  exact h.vars.inner

theorem rounds_shape {p : Program} {G : Prog Val} (hp : WellFormed p) (hG : Serves p G) {vs ws : Vars} {c : Cond} {h : Change}
    {b : List Cmd} {out : List Line} {e : End} {g : List (Text × Kind)} {Γ : Ctx} {y z : Interp.Expr Val} {bt : List (Interp.Stmt Val)}
    {σ : State Val} (hd : Does p vs [.rounds c h b] out ws e) (hf : RoundsFit p (g :: Γ) c h b) (hy : CondCode (g :: Γ) c y)
    (hz : ChangeCode (g :: Γ) h z) (ht : Code ([] :: g :: Γ) b bt) (ha : At (g :: Γ) vs σ) : ∃ v us, ws = v :: us := by
  obtain ⟨_, -, h⟩ := (simulates_both hp hG hd).2 rfl hf hy hz ht ha
  exact h.vars.inner

/-- A body that ends goes on behind its block. -/
theorem around {p : Program} {G : Prog Val} (hp : WellFormed p) (hG : Serves p G) {vs ws : Vars} {v : List (Text × Scalar)} {cs : List Cmd}
    {out : List Line} {e : End} {r : Give} {l : Around} {g : List (Text × Kind)} {Γ : Ctx} {code : List (Interp.Stmt Val)} {σ : State Val}
    (hd : Does p ([] :: vs) cs out (v :: ws) e) (he : ∀ i, e ≠ .ret i) (hf : Fits p r l ([] :: g :: Γ) cs)
    (hc : Code ([] :: g :: Γ) cs code) (ha : At (g :: Γ) vs σ) :
    ∃ σ', Exec prim G Never none σ (.block code) (Ended e) σ' ∧ At (g :: Γ) ws σ' := by
  obtain ⟨σ₁, g₁, i1, i2, -⟩ := simulates hp hG hd hf hc ha.enter
  exact ⟨_, .block (.block i1), i2.leave.at he⟩

theorem scalar_truthy (b : Bool) : Interp.isTrue prim (scalar (.bool b)) = b := by cases b <;> rfl

/-- The variable that is declared does not matter for its initial value. -/
theorem declared {g : List (Text × Kind)} {Γ : Ctx} {vs : Vars} {σ : State Val} {n : Text} {k : Kind} {d : Scalar}
    (hm : Match (g :: Γ) vs σ.blocks) (hg : g.lookup n = none) (hd : Good k d) :
    ∃ v ws b bs, vs = v :: ws ∧ σ.blocks = b :: bs ∧ b.find (String.ofList n) = none ∧
      Match (((n, k) :: g) :: Γ) (add n d (v :: ws)) (b.set (String.ofList n) (scalar d) :: bs) := by
  generalize hbs : σ.blocks = bl at hm
  cases hm with
  | @cons _ v b _ ws bs hh hm =>
    refine ⟨v, ws, b, bs, rfl, rfl, ?_, .cons (hh.add n hd) hm⟩
    rcases hh n with ⟨-, -, h3⟩ | ⟨k', s', h1, -⟩
    · exact h3
    · rw [hg] at h1; cases h1

theorem args_fail {Γ : Ctx} {as : List Num} {xs : List (Interp.Expr Val)} (h : ArgsCode Γ as xs) (G : Prog Val) {σ : State Val} {vs : Vars}
    (hm : Match Γ vs σ.blocks) (k : Nat) : (∃ a ∈ as, value (ints vs) a = none) → ArgsHangs prim G true k σ xs := by
  induction h with
  | nil => rintro ⟨a, ha, -⟩; cases ha
  | @cons a as x xs hx _ ih =>
    rintro ⟨b, hb, hv⟩
    cases ha : value (ints vs) a with
    | none => exact Interp.Sim.hangs_argsHead (hx.bad G σ vs k hm ha)
    | some i =>
      refine Interp.Sim.hangs_argsTail (eval_refines (hx.ok G σ vs i hm ha).1) (ih ⟨b, ?_, hv⟩)
      rcases List.mem_cons.1 hb with rfl | hb
      · rw [ha] at hv; cases hv
      · exact hb

theorem args_ok {Γ : Ctx} {as : List Num} {xs : List (Interp.Expr Val)} (h : ArgsCode Γ as xs) (G : Prog Val) {σ : State Val} {vs : Vars}
    (hm : Match Γ vs σ.blocks) : ∀ {is : List Int}, as.map (value (ints vs)) = is.map some →
      Interp.Sim.ArgsOk prim G σ xs (.val (is.map fun i => scalar (.int i))) σ := by
  induction h with
  | nil =>
    intro is e
    cases is with
    | nil => exact Interp.Sim.args_nil
    | cons => cases e
  | cons hx _ ih =>
    intro is e
    cases is with
    | nil => cases e
    | cons i is =>
      simp only [List.map_cons, List.cons.injEq] at e
      exact Interp.Sim.args_cons (eval_refines (hx.ok G σ vs i hm e.1).1) (ih e.2)

/-- All arguments have values, or one of them has none. -/
theorem args_values (vs : Vars) : ∀ as : List Num, (∃ is : List Int, as.map (value (ints vs)) = is.map some) ∨ ∃ a ∈ as, value (ints vs) a = none
  | [] => .inl ⟨[], rfl⟩
  | a :: as => by
    cases ha : value (ints vs) a with
    | none => exact .inr ⟨a, List.mem_cons_self, ha⟩
    | some i =>
      rcases args_values vs as with ⟨is, h⟩ | ⟨b, hb, h⟩
      · exact .inl ⟨i :: is, by simp [ha, h]⟩
      · exact .inr ⟨b, List.mem_cons_of_mem _ hb, h⟩

/-- A call whose body hangs. -/
theorem call_hangs {p : Program} {G : Prog Val} (hp : WellFormed p) (hG : Serves p G) {bad : Bool} {k : Nat} {vs : Vars} {args : List Num}
    {is : List Int} {f : Fun} {g : List (Text × Kind)} {Γ : Ctx} {xs : List (Interp.Expr Val)} {σ : State Val}
    (hargs : args.map (value (ints vs)) = is.map some) (hmem : f ∈ p) (hlen : args.length = f.params.length) (hx : ArgsCode (g :: Γ) args xs)
    (ha : At (g :: Γ) vs σ)
    (hbody : ∀ code τ, Code [f.params.map (·, .int)] f.body code → At [f.params.map (·, .int)] [f.params.zip (is.map .int)] τ →
      ListHangs prim G bad k τ code) :
    EvalHangs prim G bad k σ (.call [] (String.ofList f.name) xs) := by
  have hlen' : is.length = f.params.length := by
    rw [← hlen]
    have := congrArg List.length hargs
    simpa using this.symm
  obtain ⟨body, hm, hcode⟩ := hG.call f hmem is hlen'
  obtain ⟨-, hrange⟩ := args_eval hx G ha.vars hargs
  have hff := hp.funs f hmem
  have hstart : At [f.params.map (·, .int)] [f.params.zip (is.map .int)]
      { σ with blocks := [Interp.Spec.parameters none ⟨f.params.map fun n => (String.ofList n, none), f.isVoid, .body body⟩
        (is.map fun i => scalar (.int i))], self := none, rv := .null } :=
    ⟨match_params hlen' (fun m hm => (hff.params m hm).1.1) hrange _ _, rfl, rfl⟩
  exact Interp.Sim.hangs_call (args_ok hx G ha.vars hargs)
    (m := (⟨f.params.map fun n => (String.ofList n, none), f.isVoid, .body body⟩, none))
    (by simp [State.callee, Interp.Spec.methodOf, ha.self, hm]) rfl (hbody body _ hcode hstart)

/-- An assignment whose right side hangs. -/
theorem assign_hangs {G : Prog Val} {bad : Bool} {k : Nat} {Γ : Ctx} {vs : Vars} {n : Text} {kd : Kind} {x : Interp.Expr Val} {σ : State Val}
    (hm : Match Γ vs σ.blocks) (hk : kind Γ n = some kd) (h : EvalHangs prim G bad k σ x) :
    ExecHangs prim G bad k σ (.expr (.assign ⟨String.ofList n, []⟩ x)) := by
  obtain ⟨o, j, h1, h2, h3⟩ := hm.find hk
  exact Interp.Sim.hangs_expr (Interp.Sim.hangs_assign (w := .loc j) (old := scalar o)
    (by simp [State.locate, State.members, State.name, h3]) h)

/-- A variable that cannot change. -/
theorem change_hangs {g : List (Text × Kind)} {Γ : Ctx} {vs : Vars} {σ : State Val} {d : Change} {G : Prog Val} {x : Interp.Expr Val} (k : Nat)
    (hm : Match (g :: Γ) vs σ.blocks) (hk : kind (g :: Γ) d.name = some .int) (hx : ChangeCode (g :: Γ) d x)
    (hv : value (ints vs) d.num = none) : ExecHangs prim G true k σ (.expr x) := by
  cases hx with
  | to hx => exact assign_hangs hm hk (hx.bad G σ vs k hm hv)
  | step up n =>
    obtain ⟨o, j, h1, h2, h3⟩ := hm.find hk
    obtain ⟨i, rfl, hr⟩ := h2.of
    · have hl : σ.locate ⟨String.ofList n, []⟩ = some (.loc j, scalar (.int i)) := by
        have h3 : findBlock (String.ofList n) σ.blocks = _ := h3
        simp [State.locate, State.members, State.name, h3]
      have hn : ints vs n = i := by
        have h1 : get vs n = _ := h1
        simp [ints, h1]
      rw [step_value hn] at hv
      have hu := arith_step i up hr
      rw [hv] at hu
      exact Interp.Sim.hangs_expr (Interp.Sim.hangs_incrFail hl hu)

/-! ## Failing -/

/-- A number that cannot be computed. -/
theorem picked_bad {G : Prog Val} {Γ : Ctx} {vs : Vars} {σ : State Val} {i : Int} {db : List (Interp.Stmt Val)} (k : Nat)
    (hm : Match Γ vs σ.blocks) (hi : (Calc.inRange i).isSome) : ∀ (xs : List ((Num × List Cmd) × Interp.Expr Val × List (Interp.Stmt Val))),
    (∀ y ∈ xs, NumCode Γ y.1.1 y.2.1) → matching vs i (xs.map (·.1)) = none →
    Interp.Sim.CasesHangs prim G true k σ (scalar (.int i)) (xs.map (·.2)) db
  | [], _, h => by cases h
  | ((a, b), x, c) :: xs, hn, h => by
    have hx := hn _ List.mem_cons_self
    simp only [List.map_cons, matching] at h
    split at h
    · rename_i hv
      exact Interp.Sim.hangs_label (hx.bad G σ vs k hm hv)
    · rename_i j hj
      have he := (hx.ok G σ vs j hm hj).1
      have hc := prim_eq hi (hx.ok G σ vs j hm hj).2
      split at h
      · cases h
      · rename_i e
        rw [decide_eq_false e] at hc
        exact Interp.Sim.hangs_skip (Interp.Sim.eval_refines he) (Interp.Sim.compare_prim nofun hc)
          (picked_bad k hm hi xs (fun y hy => hn y (List.mem_cons_of_mem _ hy)) h)

theorem goes_on {d : End} (h : d = .next ∨ d = .cont) : Ended d = .normal ∨ Ended d = .cont := by
  rcases h with rfl | rfl
  · exact .inl rfl
  · exact .inr rfl

/-- The start of a `for`. -/
theorem counter {G : Prog Val} {g : List (Text × Kind)} {Γ : Ctx} {vs : Vars} {n : Text} {a : Num} {x : Interp.Expr Val} {i : Int}
    {σ : State Val} (hx : NumCode ([(n, .int)] :: g :: Γ) a x) (hs : n ∉ a.vars) (hv : value (ints vs) a = some i) (ha : At (g :: Γ) vs σ) :
    ∃ σ', Exec prim G Never none { σ with blocks := [] :: σ.blocks } (.decl "int" (String.ofList n) (some x)) .normal σ' ∧
      At ([(n, .int)] :: g :: Γ) ([(n, .int i)] :: vs) σ' := by
  have hval : ∀ d, value (ints (add n d ([] :: vs))) a = some i := fun d => by
    rw [value_congr (τ := ints ([] :: vs)) fun m hm => ints_add (fun h : m = n => hs (h ▸ hm))]
    exact hv
  obtain ⟨σ₁, h1, h2, h3, h4, h5⟩ := declare_leads (s := .int i) (d := .int 0) (ty := "int") (G := G) (x := _) (k := .int) ha.enter.vars rfl
    (by simp [Good, Calc.inRange]) rfl fun τ hm => (hx.ok G τ _ i hm (hval _))
  exact ⟨σ₁, h1, h2, h3.trans ha.self, h4.trans ha.fresh⟩

/-- The step of a `for`. -/
theorem stepped {G : Prog Val} {g : List (Text × Kind)} {Γ : Ctx} {vs : Vars} {d : Change} {z : Interp.Expr Val} {i : Int}
    {σ : State Val} (hm : kind (g :: Γ) d.name = some .int) (hz : ChangeCode (g :: Γ) d z) (hv : value (ints vs) d.num = some i) (ha : At (g :: Γ) vs σ) :
    ∃ σ', Exec prim G Never none σ (.expr z) .normal σ' ∧ At (g :: Γ) (put d.name (.int i) vs) σ' := by
  obtain ⟨σ₂, h1, h2, h3, h4, h5⟩ := change_leads (G := G) ha.vars hm hz hv
  exact ⟨σ₂, h1, h2, h3.trans ha.self, h4.trans ha.fresh⟩

theorem use_same {r : Give} {Γ Γ' Γ'' : Ctx} {u : Use} {args : List Num} {x : Interp.Expr Val} {y : Interp.Stmt Val} (hu : UseFits r Γ args u Γ')
    (hy : UseCode Γ u x Γ'' y) : Γ' = Γ'' := by
  cases hu <;> cases hy <;> rfl

/-- A use of a result that is not computed. -/
theorem use_hangs {G : Prog Val} {bad : Bool} {k : Nat} {r : Give} {g : List (Text × Kind)} {Γ Γ' : Ctx} {vs : Vars} {u : Use} {args : List Num}
    {xs : List (Interp.Expr Val)} {x : Interp.Expr Val} {y : Interp.Stmt Val} {σ : State Val} (hu : UseFits r (g :: Γ) args u Γ')
    (hx : ArgsCode Γ' args xs) (hy : UseCode (g :: Γ) u x Γ' y) (ha : At (g :: Γ) vs σ)
    (h : ∀ (g' : List (Text × Kind)) (vs' : Vars) (σ' : State Val), At (g' :: Γ) vs' σ' → ArgsCode (g' :: Γ) args xs →
      args.map (value (ints vs')) = args.map (value (ints vs)) → EvalHangs prim G bad k σ' x) : ExecHangs prim G bad k σ y := by
  cases hu with
  | set hk =>
    cases hy
    exact assign_hangs ha.vars hk (h _ _ _ ha hx rfl)
  | @new _ _ _ _ n hu hg hs =>
    cases hy
    obtain ⟨v, ws, b, bs, rfl, e1, e2, e3⟩ := declared (k := .int) (d := .int 0) ha.vars hg (by simp [Good, Calc.inRange])
    exact Interp.Sim.hangs_decl e1 e2 (h _ _ _ ⟨e3, ha.self, ha.fresh⟩ hx
      (List.map_congr_left fun a hm => value_congr fun m hv => ints_add fun e : m = n => hs a hm (e ▸ hv)))
  | print =>
    cases hy
    exact Interp.Sim.hangs_print (h _ _ _ ha hx rfl)
  | ret =>
    cases hy
    exact Interp.Sim.hangs_ret (h _ _ _ ha hx rfl)

theorem truth_cases (o : Option Bool) : o = none ∨ o = some false ∨ o = some true := by
  rcases o with _ | _ | _ <;> simp

theorem bad_args {vs vs' : Vars} {args : List Num} (h : args.map (value (ints vs')) = args.map (value (ints vs)))
    (hv : ∃ a ∈ args, value (ints vs) a = none) : ∃ a ∈ args, value (ints vs') a = none := by
  obtain ⟨a, ha, hv⟩ := hv
  have := List.map_inj_left.1 h a ha
  exact ⟨a, ha, this.trans hv⟩

/-- Commands without a meaning make the interpreter fail. -/
theorem fails_both {p : Program} {G : Prog Val} (hp : WellFormed p) (hG : Serves p G) {vs : Vars} {cs : List Cmd} (hw : Wrong p vs cs) :
    (∀ {r : Give} {l : Around} {g : List (Text × Kind)} {Γ : Ctx} {code : List (Interp.Stmt Val)} {σ : State Val} (k : Nat),
      Fits p r l (g :: Γ) cs → Code (g :: Γ) cs code → At (g :: Γ) vs σ → ListHangs prim G true k σ code) ∧
    (∀ {c : Cond} {h : Change} {b : List Cmd}, cs = [.rounds c h b] → ∀ {g : List (Text × Kind)} {Γ : Ctx} {y z : Interp.Expr Val}
      {bt : List (Interp.Stmt Val)} {σ : State Val} (k : Nat), RoundsFit p (g :: Γ) c h b → CondCode (g :: Γ) c y → ChangeCode (g :: Γ) h z →
      Code ([] :: g :: Γ) b bt → At (g :: Γ) vs σ →
      ForHangs prim G true k σ y (.expr z) (.block bt)) := by
  have down : ∀ {k : Nat} {σ : State Val} {b : List (Interp.Stmt Val)}, ListHangs prim G true (k + 1) σ b → ListHangs prim G true k σ b :=
    Interp.Sim.list_less
  induction hw with
  | @int vs n a cs hv =>
    refine ⟨?_, nofun⟩
    intro r l g Γ code σ k hf hc ha
    cases hc with
    | int hx hb =>
    cases hf with
    | int hu hg hn hs hf =>
    obtain ⟨v, ws, b, bs, rfl, e1, e2, e3⟩ := declared (k := .int) (d := .int 0) ha.vars hg (by simp [Good, Calc.inRange])
    refine down (Interp.Sim.hangs_head (Interp.Sim.hangs_decl e1 e2 (hx.bad G _ _ k e3 ?_)))
    rw [value_congr (τ := ints (v :: ws)) fun m hm => ints_add (fun h : m = n => hs (h ▸ hm)), hv]
  | @bool vs n c cs hv =>
    refine ⟨?_, nofun⟩
    intro r l g Γ code σ k hf hc ha
    cases hc with
    | bool hx hb =>
    cases hf with
    | bool hu hg hn hs hf =>
    obtain ⟨v, ws, b, bs, rfl, e1, e2, e3⟩ := declared (k := .bool) (d := .bool false) ha.vars hg trivial
    refine down (Interp.Sim.hangs_head (Interp.Sim.hangs_decl e1 e2 (hx.bad G _ _ k e3 ?_)))
    rw [truth_congr (τ := ints (v :: ws)) (ψ := flags (v :: ws))
        (fun m hm => ints_add (fun h : m = n => hs (List.mem_append_left _ (h ▸ hm))))
        (fun m hm => flags_add (fun h : m = n => hs (List.mem_append_right _ (h ▸ hm)))), hv]
  | @set vs d cs hv =>
    refine ⟨?_, nofun⟩
    intro r l g Γ code σ k hf hc ha
    cases hc with
    | set hx hb =>
    cases hf with
    | set hk hn hf => exact down (Interp.Sim.hangs_head (change_hangs k ha.vars hk hx hv))
  | @check vs c cs hv =>
    refine ⟨?_, nofun⟩
    intro r l g Γ code σ k hf hc ha
    cases hc with
    | check hx hb =>
      rcases truth_cases (truth (ints vs) (flags vs) c) with h | h | h
      · exact down (Interp.Sim.hangs_head (Interp.Sim.hangs_assert (hx.bad G σ vs k ha.vars h)))
      · exact down (Interp.Sim.hangs_head (Interp.Sim.hangs_assertF (Interp.Sim.eval_refines (hx.ok G σ vs false ha.vars h)) (truthy_bool false)))
      · exact absurd h hv
  | @mark vs n c cs hv =>
    refine ⟨?_, nofun⟩
    intro r l g Γ code σ k hf hc ha
    cases hc with
    | mark hx hb =>
    cases hf with
    | mark hk hn hf =>
    obtain ⟨o, j, h1, h2, h3⟩ := ha.vars.find hk
    exact down (Interp.Sim.hangs_head (Interp.Sim.hangs_expr (Interp.Sim.hangs_assign (w := .loc j) (old := scalar o)
      (by simp [State.locate, State.members, State.name, h3]) (hx.bad G σ vs k ha.vars hv))))
  | @arg vs u f args cs hv =>
    refine ⟨?_, nofun⟩
    intro r l g Γ code σ k hf hc ha
    cases hf with
    | call hk h2 h3 h4 h5 hf =>
    cases hc with
    | call hx hy hb =>
    cases use_same hk hy
    exact down (Interp.Sim.hangs_head (use_hangs hk hx hy ha fun g' vs' σ' ha' hx' he =>
      Interp.Sim.hangs_callArgs (args_fail hx' G ha'.vars k (bad_args he hv))))
  | @call vs u f args cs is g₀ hargs hmem hname _ ih =>
    refine ⟨?_, nofun⟩
    intro r l g Γ code σ k hf hc ha
    cases hf with
    | @call _ _ _ _ _ g₁ _ _ hk hg1 hvoid hlen hn hf =>
    have hgg : g₁ = g₀ := same_name Fun.name hp.distinct hg1 hmem hname.symm
    subst hgg
    cases hc with
    | call hx hy hb =>
    cases use_same hk hy
    exact down (Interp.Sim.hangs_head (use_hangs hk hx hy ha fun g' vs' σ' ha' hx' he =>
      call_hangs hp hG (he.trans hargs) hg1 hlen hx' ha' fun code τ h1 h2 => ih.1 k (hp.funs g₁ hg1).body h1 h2))
  | @actArg vs f args cs hv =>
    refine ⟨?_, nofun⟩
    intro r l g Γ code σ k hf hc ha
    cases hc with
    | act hx hb => exact down (Interp.Sim.hangs_head (Interp.Sim.hangs_expr (Interp.Sim.hangs_callArgs (args_fail hx G ha.vars k hv))))
  | @act vs f args cs is g₀ hargs hmem hname _ ih =>
    refine ⟨?_, nofun⟩
    intro r l g Γ code σ k hf hc ha
    cases hc with
    | act hx hb =>
    cases hf with
    | @act _ _ _ g₁ _ _ hg1 hlen hn hf =>
    have hgg : g₁ = g₀ := same_name Fun.name hp.distinct hg1 hmem hname.symm
    subst hgg
    exact down (Interp.Sim.hangs_head (Interp.Sim.hangs_expr
      (call_hangs hp hG hargs hg1 hlen hx ha fun code τ h1 h2 => ih.1 k (hp.funs g₁ hg1).body h1 h2)))
  | @text vs n t ps cs hv =>
    refine ⟨?_, nofun⟩
    intro r l g Γ code σ k hf hc ha
    cases hc with
    | text hx hb =>
    cases hf with
    | text hu hg _ _ hs hf =>
    obtain ⟨v, ws, b, bs, rfl, e1, e2, e3⟩ := declared (k := .string) (d := .text []) ha.vars hg trivial
    exact down (Interp.Sim.hangs_head (Interp.Sim.hangs_decl e1 e2 (hx.bad G _ _ k e3 ((told_add hs).trans hv))))
  | @write vs n t ps cs hv =>
    refine ⟨?_, nofun⟩
    intro r l g Γ code σ k hf hc ha
    cases hc with
    | write hx hb =>
    cases hf with
    | write hk _ _ hf =>
    obtain ⟨o, j, h1, h2, h3⟩ := ha.vars.find hk
    exact down (Interp.Sim.hangs_head (Interp.Sim.hangs_expr (Interp.Sim.hangs_assign (w := .loc j) (old := scalar o)
      (by simp [State.locate, State.members, State.name, h3]) (hx.bad G σ vs k ha.vars hv))))
  | @say vs t ps cs hv =>
    refine ⟨?_, nofun⟩
    intro r l g Γ code σ k hf hc ha
    cases hc with
    | say hx hb => exact down (Interp.Sim.hangs_head (Interp.Sim.hangs_print (hx.bad G σ vs k ha.vars hv)))
  | @print vs a cs hv =>
    refine ⟨?_, nofun⟩
    intro r l g Γ code σ k hf hc ha
    cases hc with
    | print hx hb => exact down (Interp.Sim.hangs_head (Interp.Sim.hangs_print (hx.bad G σ vs k ha.vars hv)))
  | @whenCond vs c t cs hv =>
    refine ⟨?_, nofun⟩
    intro r l g Γ code σ k hf hc ha
    cases hc with
    | «when» hx ht hb => exact down (Interp.Sim.hangs_head (Interp.Sim.hangs_ite (hx.bad G σ vs k ha.vars hv)))
  | @whenTrue vs c t cs hv _ ih =>
    refine ⟨?_, nofun⟩
    intro r l g Γ code σ k hf hc ha
    cases hc with
    | «when» hx ht hb =>
    cases hf with
    | «when» hn hft hf =>
    exact down (Interp.Sim.hangs_head (Interp.Sim.hangs_iteT (eval_refines (hx.ok G σ vs true ha.vars hv)) (scalar_truthy true)
      (Interp.Sim.hangs_block (ih.1 k hft ht ha.enter))))
  | @chooseCond vs c t f cs hv =>
    refine ⟨?_, nofun⟩
    intro r l g Γ code σ k hf hc ha
    cases hc with
    | choose hx ht hu hb => exact down (Interp.Sim.hangs_head (Interp.Sim.hangs_ite (hx.bad G σ vs k ha.vars hv)))
  | @chooseTrue vs c t f cs hv _ ih =>
    refine ⟨?_, nofun⟩
    intro r l g Γ code σ k hf hc ha
    cases hc with
    | choose hx ht hu hb =>
    cases hf with
    | choose hn hft hfu hf =>
    exact down (Interp.Sim.hangs_head (Interp.Sim.hangs_iteT (eval_refines (hx.ok G σ vs true ha.vars hv)) (scalar_truthy true)
      (Interp.Sim.hangs_block (ih.1 k hft ht ha.enter))))
  | @chooseFalse vs c t f cs hv _ ih =>
    refine ⟨?_, nofun⟩
    intro r l g Γ code σ k hf hc ha
    cases hc with
    | choose hx ht hu hb =>
    cases hf with
    | choose hn hft hfu hf =>
    exact down (Interp.Sim.hangs_head (Interp.Sim.hangs_iteF (eval_refines (hx.ok G σ vs false ha.vars hv)) (scalar_truthy false)
      (Interp.Sim.hangs_block (ih.1 k hfu hu ha.enter))))
  | @chainCond vs c d t cs hv =>
    refine ⟨?_, nofun⟩
    intro r l g Γ code σ k hf hc ha
    cases hc with
    | chain hx ht hu hb => exact down (Interp.Sim.hangs_head (Interp.Sim.hangs_ite (hx.bad G σ vs k ha.vars hv)))
  | @chainTrue vs c d t cs hv _ ih =>
    refine ⟨?_, nofun⟩
    intro r l g Γ code σ k hf hc ha
    cases hc with
    | chain hx ht hu hb =>
    cases hf with
    | chain hn hft hd hfu hf =>
    exact down (Interp.Sim.hangs_head (Interp.Sim.hangs_iteT (eval_refines (hx.ok G σ vs true ha.vars hv)) (scalar_truthy true)
      (Interp.Sim.hangs_block (ih.1 k hft ht ha.enter))))
  | @chainFalse vs c d t cs hv _ ih =>
    refine ⟨?_, nofun⟩
    intro r l g Γ code σ k hf hc ha
    cases hc with
    | chain hx ht hu hb =>
    cases hf with
    | chain hn hft hd hfu hf =>
    exact down (Interp.Sim.hangs_head (Interp.Sim.hangs_iteOnly (eval_refines (hx.ok G σ vs false ha.vars hv)) (scalar_truthy false)
      (ih.1 k hfu hu ha)))
  | @pickNum vs a as cs hv =>
    refine ⟨?_, nofun⟩
    intro r l g Γ code σ k hf hc ha
    cases hc with
    | @pick _ _ _ _ _ db _ xs hx hl hn hcs hdb hb =>
    cases hf with
    | pick _ _ _ _ hne _ _ =>
    cases xs with
    | nil => exact absurd hl hne
    | cons => exact down (Interp.Sim.hangs_head (Interp.Sim.hangs_switchExpr (hx.bad G σ vs k ha.vars hv)))
  | @pickLabel vs a as cs i hv hch =>
    refine ⟨?_, nofun⟩
    intro r l g Γ code σ k hf hc ha
    cases hc with
    | @pick _ _ _ _ _ db _ xs hx hl hn hcs hdb hb =>
    cases hf with
    | pick _ _ _ _ hne _ _ =>
    have hch : matching vs i (xs.map (·.1)) = none := by rw [← hl]; simpa [chosen] using hch
    obtain ⟨h1, h2⟩ := hx.ok G σ vs i ha.vars hv
    have := picked_bad (G := G) (db := db) k ha.vars h2 xs hn hch
    cases xs with
    | nil => exact absurd hl hne
    | cons => exact down (Interp.Sim.hangs_head (Interp.Sim.hangs_switch (eval_refines h1) this))
  | @pick vs a as b cs i hv hch _ ih =>
    refine ⟨?_, nofun⟩
    intro r l g Γ code σ k hf hc ha
    cases hc with
    | pick hx hl hn hcs hdb hb =>
    cases hf with
    | pick _ _ hft _ hne _ _ =>
    obtain ⟨c, q1, -, q2⟩ := chosen_code (G := G) ha.vars hx hl hn hcs hdb hne hv hch
    exact down (Interp.Sim.hangs_head (q2 _ _ (ih.1 k (chosen_fits hch hft) q1 ha.enter)))
  | @loopCond vs c b cs hv =>
    refine ⟨?_, nofun⟩
    intro r l g Γ code σ k hf hc ha
    cases hc with
    | loop hx ht hb =>
      exact down (Interp.Sim.hangs_head (Interp.Sim.hangs_while (Interp.Sim.while_less (Interp.Sim.hangs_whileCond (hx.bad G σ vs k ha.vars hv)))))
  | @loopBody vs c b cs hv _ ih =>
    refine ⟨?_, nofun⟩
    intro r l g Γ code σ k hf hc ha
    cases hc with
    | loop hx ht hb =>
    cases hf with
    | loop hn hft hf =>
    exact down (Interp.Sim.hangs_head (Interp.Sim.hangs_while (Interp.Sim.while_less (Interp.Sim.hangs_whileBody
      (eval_refines (hx.ok G σ vs true ha.vars hv)) (scalar_truthy true) (Interp.Sim.hangs_block (ih.1 k hft ht ha.enter))))))
  | @loopNext vs ws v c b cs out d hv hd he _ ih =>
    refine ⟨?_, nofun⟩
    intro r l g Γ code σ k hf hc ha
    cases hc with
    | loop hx ht hb =>
    cases hf with
    | loop hn hft hf =>
    obtain ⟨σ₁, i1, i2⟩ := around hp hG hd (by rcases he with rfl | rfl <;> nofun) hft ht ha
    have := ih.1 (l := l) k (.loop hn hft .nil) (.loop hx ht .nil) i2
    refine down (Interp.Sim.hangs_head (Interp.Sim.hangs_while (Interp.Sim.while_less (Interp.Sim.hangs_whileNext
      (eval_refines (hx.ok G σ vs true ha.vars hv)) (scalar_truthy true) (exec_refines i1) ?_ (Interp.Sim.while_of_list this)))))
    rcases he with rfl | rfl
    · exact .inl rfl
    · exact .inr rfl
  | @countStart vs n a _ c b cs hv =>
    refine ⟨?_, nofun⟩
    intro r l g Γ code σ k hf hc ha
    cases hc with
    | count hx hy hz ht hb =>
    cases hf with
    | count hu hn hs hcf hm hsf hft hf =>
    obtain ⟨v, ws, b, bs, e0, e1, e2, e3⟩ := declared (k := .int) (n := n) (d := .int 0) ha.enter.vars rfl (by simp [Good, Calc.inRange])
    cases e0
    refine down (Interp.Sim.hangs_head (Interp.Sim.hangs_forStart (Interp.Sim.hangs_decl e1 e2 (hx.bad G _ _ k e3 ?_))))
    rw [value_congr (τ := ints ([] :: vs)) fun m hm => ints_add (fun h : m = n => hs (h ▸ hm))]
    exact hv
  | @count vs n a _ c b cs i hv _ ih =>
    refine ⟨?_, nofun⟩
    intro r l g Γ code σ k hf hc ha
    cases hc with
    | count hx hy hz ht hb =>
    cases hf with
    | count hu hn hs hcf hm hsf hft hf =>
    obtain ⟨σ₁, h1, h2⟩ := counter hx hs hv ha
    exact down (Interp.Sim.hangs_head (Interp.Sim.hangs_for (exec_refines h1) (ih.2 rfl k ⟨hcf, hm, hsf, hft⟩ hy hz ht h2)))
  | @roundsCond vs c _ b cs hv =>
    refine ⟨nofun, ?_⟩
    intro c' h' b' heq g Γ y z bt σ k hf hy hz ht ha
    cases heq
    exact Interp.Sim.for_less (Interp.Sim.hangs_forCond (hy.bad G σ vs k ha.vars hv))
  | @roundsBody vs c _ b cs hv _ ih =>
    refine ⟨nofun, ?_⟩
    intro c' h' b' heq g Γ y z bt σ k hf hy hz ht ha
    cases heq
    exact Interp.Sim.for_less (Interp.Sim.hangs_forBody (eval_refines (hy.ok G σ vs true ha.vars hv)) (scalar_truthy true)
      (Interp.Sim.hangs_block (ih.1 k hf.body ht ha.enter)))
  | @roundsStep vs ws v c _ b cs out d hv hd he hs =>
    refine ⟨nofun, ?_⟩
    intro c' h' b' heq g Γ y z bt σ k hf hy hz ht ha
    cases heq
    obtain ⟨σ₁, i1, i2⟩ := around hp hG hd (by rcases he with rfl | rfl <;> nofun) hf.body ht ha
    exact Interp.Sim.for_less (Interp.Sim.hangs_forStep (eval_refines (hy.ok G σ vs true ha.vars hv)) (scalar_truthy true) (exec_refines i1)
      (goes_on he) (change_hangs k i2.vars hf.var hz hs))
  | @roundsNext vs ws v c _ b cs i out d hv hd he hs _ ih =>
    refine ⟨nofun, ?_⟩
    intro c' h' b' heq g Γ y z bt σ k hf hy hz ht ha
    cases heq
    obtain ⟨σ₁, i1, i2⟩ := around hp hG hd (by rcases he with rfl | rfl <;> nofun) hf.body ht ha
    obtain ⟨σ₂, h1, h2⟩ := stepped hf.var hz hs i2
    exact Interp.Sim.for_less (Interp.Sim.hangs_forNext (eval_refines (hy.ok G σ vs true ha.vars hv)) (scalar_truthy true) (exec_refines i1)
      (goes_on he) (exec_refines h1) (ih.2 rfl k hf hy hz ht h2))
  | @block vs b cs _ ih =>
    refine ⟨?_, nofun⟩
    intro r l g Γ code σ k hf hc ha
    cases hc with
    | block ht hb =>
    cases hf with
    | block hft hf =>
    exact down (Interp.Sim.hangs_head (Interp.Sim.hangs_block (ih.1 k hft ht ha.enter)))
  | @ret vs a cs hv =>
    refine ⟨?_, nofun⟩
    intro r l g Γ code σ k hf hc ha
    cases hc with
    | ret hx hb => exact down (Interp.Sim.hangs_head (Interp.Sim.hangs_ret (hx.bad G σ vs k ha.vars hv)))
  | later hd hw ih =>
    refine ⟨?_, fun e => by cases e; cases hw⟩
    intro r l g Γ code σ k hf hc ha
    obtain ⟨st, b, g', σ', rfl, i1, i2, i3, i4⟩ := first hp hG hd hf hc ha
    exact down (Interp.Sim.hangs_tail (exec_refines i1) (ih.1 k i2 i3 i4))

theorem fails {p : Program} {G : Prog Val} (hp : WellFormed p) (hG : Serves p G) {vs : Vars} {cs : List Cmd} (hw : Wrong p vs cs)
    {r : Give} {l : Around} {g : List (Text × Kind)} {Γ : Ctx} {code : List (Interp.Stmt Val)} {σ : State Val} (k : Nat)
    (hf : Fits p r l (g :: Γ) cs) (hc : Code (g :: Γ) cs code) (ha : At (g :: Γ) vs σ) : ListHangs prim G true k σ code :=
  (fails_both hp hG hw).1 k hf hc ha

/-! ## Going on forever -/

/-- Commands that neither end nor fail keep the interpreter busy. -/
theorem forever {p : Program} {G : Prog Val} (hp : WellFormed p) (hG : Serves p G) : ∀ (k : Nat) {vs : Vars} {cs : List Cmd} {r : Give} {l : Around}
    {g : List (Text × Kind)} {Γ : Ctx} {code : List (Interp.Stmt Val)} {σ : State Val}, Stays p vs cs → Fits p r l (g :: Γ) cs →
      Code (g :: Γ) cs code → At (g :: Γ) vs σ → ListHangs prim G false k σ code
  | 0, _, _, _, _, _, _, _, _, _, _, _, _ => fun _ _ _ _ _ => by
    show Interp.execList _ _ 0 _ _ = _
    rw [Interp.execList]
  | k + 1, vs, cs, r, l, g, Γ, code, σ, hs, hf, hc, ha => by
    cases cs with
    | nil => exact absurd .done (hs.1 _ _ _)
    | cons c cs =>
    have inner : ∀ {l : Around} {b : List Cmd} {bt : List (Interp.Stmt Val)} {vs : Vars} {σ : State Val}, Fits p r l ([] :: g :: Γ) b →
        Code ([] :: g :: Γ) b bt → At (g :: Γ) vs σ → Stays p vs [.block b] → ExecHangs prim G false k σ (.block bt) := by
      intro l b bt vs σ hfb hcb ha hs
      refine Interp.Sim.hangs_block (forever hp hG k ⟨fun out ws e hd => ?_, fun hw => hs.2 (.block hw)⟩ hfb hcb ha.enter)
      obtain ⟨v, us, rfl⟩ := shape hp hG hd hfb hcb ha.enter
      by_cases he : e = .next
      · subst he
        exact hs.1 _ _ _ (.block hd .done)
      · exact hs.1 _ _ _ (.blockLeft hd he)
    rcases hs.split with hs | ⟨out, ws, hd, hs⟩
    · cases hc with
      | @int _ _ n a =>
        cases hv : value (ints vs) a with
        | none => exact absurd (.int hv) hs.2
        | some i => exact absurd (.int hv .done) (hs.1 _ _ _)
      | @bool _ _ n c =>
        cases hv : truth (ints vs) (flags vs) c with
        | none => exact absurd (.bool hv) hs.2
        | some i => exact absurd (.bool hv .done) (hs.1 _ _ _)
      | @set _ d =>
        cases hv : value (ints vs) d.num with
        | none => exact absurd (.set hv) hs.2
        | some i => exact absurd (.set hv .done) (hs.1 _ _ _)
      | fresh => exact absurd (.fresh .done) (hs.1 _ _ _)
      | @check _ c =>
        by_cases hv : truth (ints vs) (flags vs) c = some true
        · exact absurd (.check hv .done) (hs.1 _ _ _)
        · exact absurd (.check hv) hs.2
      | @mark _ n c =>
        cases hv : truth (ints vs) (flags vs) c with
        | none => exact absurd (.mark hv) hs.2
        | some i => exact absurd (.mark hv .done) (hs.1 _ _ _)
      | @call _ _ u f args _ xs y b hx hy hb =>
        cases hf with
        | @call _ _ _ _ _ f _ _ hk hmem hvoid hlen hn hf =>
        rcases args_values vs args with ⟨is, hargs⟩ | hbad
        · have hbody : ∀ body τ, Code [f.params.map (·, .int)] f.body body → At [f.params.map (·, .int)] [f.params.zip (is.map .int)] τ →
              ListHangs prim G false k τ body := by
            intro body τ h1 h2
            refine forever hp hG k ⟨fun out ws e hd => ?_, fun hw => hs.2 (.call hargs hmem rfl hw)⟩ (hp.funs f hmem).body h1 h2
            obtain ⟨i, rfl⟩ := hd.result (hp.funs f hmem) hvoid
            by_cases hu : u = .ret
            · subst hu
              exact hs.1 _ _ _ (.callRet hargs hmem rfl hd)
            · exact hs.1 _ _ _ (.call hargs hmem rfl hd hu .done)
          cases use_same hk hy
          exact Interp.Sim.hangs_head (use_hangs hk hx hy ha fun g' vs' σ' ha' hx' he =>
            call_hangs hp hG (he.trans hargs) hmem hlen hx' ha' hbody)
        · exact absurd (.arg hbad) hs.2
      | @act _ f args _ xs b hx hb =>
        cases hf with
        | @act _ _ _ f _ _ hmem hlen hn hf =>
        rcases args_values vs args with ⟨is, hargs⟩ | hbad
        · refine Interp.Sim.hangs_head (Interp.Sim.hangs_expr (call_hangs hp hG hargs hmem hlen hx ha fun body τ h1 h2 => ?_))
          refine forever hp hG k ⟨fun out ws e hd => ?_, fun hw => hs.2 (.act hargs hmem rfl hw)⟩ (hp.funs f hmem).body h1 h2
          have hal := hd.allowed (hp.funs f hmem).body
          refine hs.1 _ _ _ (.act hargs hmem rfl hd ?_ ?_ .done)
          · rintro rfl; rcases hal with h | h <;> cases h
          · rintro rfl; rcases hal with h | h <;> cases h
        · exact absurd (.actArg hbad) hs.2
      | @print _ a =>
        cases hv : value (ints vs) a with
        | none => exact absurd (.print hv) hs.2
        | some i => exact absurd (.print hv .done) (hs.1 _ _ _)
      | @«when» _ c t _ x bt b hx ht hb =>
        cases hf with
        | «when» hn hft hf =>
        rcases truth_cases (truth (ints vs) (flags vs) c) with hv | hv | hv
        · exact absurd (.whenCond hv) hs.2
        · exact absurd (.whenFalse hv .done) (hs.1 _ _ _)
        · refine Interp.Sim.hangs_head (Interp.Sim.hangs_iteT (eval_refines (hx.ok G σ vs true ha.vars hv)) (scalar_truthy true)
            (inner hft ht ha ⟨fun out ws e hd => hs.1 _ _ _ (.whenTrue hv hd), fun hw => ?_⟩))
          cases hw with
          | block hw => exact hs.2 (.whenTrue hv hw)
          | later _ hw => cases hw
      | @choose _ c t u _ x bt bu b hx ht hu hb =>
        cases hf with
        | choose hn hft hfu hf =>
        rcases truth_cases (truth (ints vs) (flags vs) c) with hv | hv | hv
        · exact absurd (.chooseCond hv) hs.2
        · refine Interp.Sim.hangs_head (Interp.Sim.hangs_iteF (eval_refines (hx.ok G σ vs false ha.vars hv)) (scalar_truthy false)
            (inner hfu hu ha ⟨fun out ws e hd => hs.1 _ _ _ (.chooseFalse hv hd), fun hw => ?_⟩))
          cases hw with
          | block hw => exact hs.2 (.chooseFalse hv hw)
          | later _ hw => cases hw
        · refine Interp.Sim.hangs_head (Interp.Sim.hangs_iteT (eval_refines (hx.ok G σ vs true ha.vars hv)) (scalar_truthy true)
            (inner hft ht ha ⟨fun out ws e hd => hs.1 _ _ _ (.chooseTrue hv hd), fun hw => ?_⟩))
          cases hw with
          | block hw => exact hs.2 (.chooseTrue hv hw)
          | later _ hw => cases hw
      | @chain _ c d t _ x y bt b hx ht hu hb =>
        cases hf with
        | chain hn hft hd hfu hf =>
        rcases truth_cases (truth (ints vs) (flags vs) c) with hv | hv | hv
        · exact absurd (.chainCond hv) hs.2
        · exact Interp.Sim.hangs_head (Interp.Sim.hangs_iteOnly (eval_refines (hx.ok G σ vs false ha.vars hv)) (scalar_truthy false)
            (forever hp hG k ⟨fun out ws e hd => hs.1 _ _ _ (.chainFalse hv hd), fun hw => hs.2 (.chainFalse hv hw)⟩ hfu hu ha))
        · refine Interp.Sim.hangs_head (Interp.Sim.hangs_iteT (eval_refines (hx.ok G σ vs true ha.vars hv)) (scalar_truthy true)
            (inner hft ht ha ⟨fun out ws e hd => hs.1 _ _ _ (.chainTrue hv hd), fun hw => ?_⟩))
          cases hw with
          | block hw => exact hs.2 (.chainTrue hv hw)
          | later _ hw => cases hw
      | @pick _ a as _ _ _ _ _ hx hl hn hcs hdb hb =>
        cases hf with
        | pick _ _ hft _ hne _ _ =>
        cases hv : value (ints vs) a with
        | none => exact absurd (.pickNum hv) hs.2
        | some i =>
        cases hch : chosen vs i as with
        | none => exact absurd (.pickLabel hv hch) hs.2
        | some b =>
        obtain ⟨c, q1, -, q2⟩ := chosen_code (G := G) ha.vars hx hl hn hcs hdb hne hv hch
        refine Interp.Sim.hangs_head (q2 _ _ (forever hp hG k ⟨fun out ws e hd => ?_, fun hw => hs.2 (.pick hv hch hw)⟩
          (chosen_fits hch hft) q1 ha.enter))
        obtain ⟨v, us, rfl⟩ := shape hp hG hd (chosen_fits hch hft) q1 ha.enter
        cases e with
        | next => exact hs.1 _ _ _ (.pick hv hch hd (.inl rfl) .done)
        | brk => exact hs.1 _ _ _ (.pick hv hch hd (.inr rfl) .done)
        | cont => rcases hd.allowed (chosen_fits hch hft) with h | h <;> cases h
        | ret i => exact hs.1 _ _ _ (.pickLeft hv hch hd nofun nofun)
        | left => exact hs.1 _ _ _ (.pickLeft hv hch hd nofun nofun)
      | @loop _ c t _ x bt b hx ht hb =>
        cases hf with
        | loop hn hft hf =>
        have turns : ∀ j, j ≤ k → ∀ vs σ, Stays p vs [.loop c t] → At (g :: Γ) vs σ → WhileHangs prim G false j σ x (.block bt) := by
          intro j
          induction j with
          | zero =>
            intro _ vs σ _ _ pre stk s _ _
            show Interp.execWhile _ _ 0 _ _ _ = _
            rw [Interp.execWhile]
          | succ j ih =>
            intro hj vs σ hs ha
            rcases truth_cases (truth (ints vs) (flags vs) c) with hv | hv | hv
            · exact absurd (.loopCond hv) hs.2
            · exact absurd (.loopEnd hv .done) (hs.1 _ _ _)
            have hev := eval_refines (hx.ok G σ vs true ha.vars hv)
            by_cases hd : ∃ out ws e, Does p ([] :: vs) t out ws e
            · obtain ⟨out, ws, e, hd⟩ := hd
              obtain ⟨v, us, rfl⟩ := shape hp hG hd hft ht ha.enter
              have go : e = .next ∨ e = .cont → WhileHangs prim G false (j + 1) σ x (.block bt) := by
                intro he
                obtain ⟨σ₁, i1, i2⟩ := around hp hG hd (by rcases he with rfl | rfl <;> nofun) hft ht ha
                refine Interp.Sim.hangs_whileNext hev (scalar_truthy true) (exec_refines i1) ?_
                  (ih (by omega) us σ₁ ⟨fun out' ws e' h' => hs.1 _ _ _ (.loopNext hv hd he h'), fun hw => hs.2 (.loopNext hv hd he hw)⟩ i2)
                rcases he with rfl | rfl
                · exact .inl rfl
                · exact .inr rfl
              cases e with
              | next => exact go (.inl rfl)
              | cont => exact go (.inr rfl)
              | brk => exact absurd (.loopBreak hv hd .done) (hs.1 _ _ _)
              | ret i => exact absurd (.loopReturn hv hd) (hs.1 _ _ _)
              | left => exact absurd (.loopLeft hv hd) (hs.1 _ _ _)
            · have hb := Interp.Sim.hangs_block (forever hp hG k ⟨fun out ws e h => hd ⟨out, ws, e, h⟩, fun hw => hs.2 (.loopBody hv hw)⟩ hft ht ha.enter)
              exact Interp.Sim.hangs_whileBody hev (scalar_truthy true) (Interp.Sim.exec_le (by omega) hb)
        exact Interp.Sim.hangs_head (Interp.Sim.hangs_while (turns k (Nat.le_refl _) vs σ hs ha))
      | @text _ _ n t ps =>
        cases hv : told vs t ps with
        | none => exact absurd (.text hv) hs.2
        | some i => exact absurd (.text hv .done) (hs.1 _ _ _)
      | @write _ n t ps =>
        cases hv : told vs t ps with
        | none => exact absurd (.write hv) hs.2
        | some i => exact absurd (.write hv .done) (hs.1 _ _ _)
      | @say _ t ps =>
        cases hv : told vs t ps with
        | none => exact absurd (.say hv) hs.2
        | some i => exact absurd (.say hv .done) (hs.1 _ _ _)
      | @count _ n a d c t _ x y z bt b hx hy hz ht hb =>
        cases hf with
        | count hu hn hs' hcf hm hsf hft hf =>
        cases hv : value (ints vs) a with
        | none => exact absurd (.countStart hv) hs.2
        | some i =>
        have turns : ∀ j, j ≤ k → ∀ vs σ, Stays p vs [.rounds c d t] → At ([(n, .int)] :: g :: Γ) vs σ →
            ForHangs prim G false j σ y (.expr z) (.block bt) := by
          intro j
          induction j with
          | zero =>
            intro _ vs σ _ _ pre stk s _ _
            show Interp.execFor _ _ 0 _ _ _ _ = _
            rw [Interp.execFor]
          | succ j ih =>
            intro hj vs σ hs ha
            rcases truth_cases (truth (ints vs) (flags vs) c) with hv | hv | hv
            · exact absurd (.roundsCond hv) hs.2
            · exact absurd (.roundsEnd hv .done) (hs.1 _ _ _)
            have hev := eval_refines (hy.ok G σ vs true ha.vars hv)
            by_cases hd : ∃ out ws e, Does p ([] :: vs) t out ws e
            · obtain ⟨out, ws, e, hd⟩ := hd
              obtain ⟨v, us, rfl⟩ := shape hp hG hd hft ht ha.enter
              have he : e = .next ∨ e = .cont := by
                have hal := hd.allowed hft
                cases e with
                | next => exact .inl rfl
                | cont => exact .inr rfl
                | brk => rcases hal with h | h <;> cases h
                | ret => cases hal
                | left => cases hal
              obtain ⟨σ₁, i1, i2⟩ := around hp hG hd (by rcases he with rfl | rfl <;> nofun) hft ht ha
              cases hst : value (ints us) d.num with
              | none => exact absurd (.roundsStep hv hd he hst) hs.2
              | some i =>
              obtain ⟨σ₂, h1, h2⟩ := stepped hm hz hst i2
              exact Interp.Sim.hangs_forNext hev (scalar_truthy true) (exec_refines i1) (goes_on he) (exec_refines h1)
                (ih (by omega) _ σ₂ ⟨fun out' ws e' h' => hs.1 _ _ _ (.roundsNext hv hd he hst h'), fun hw => hs.2 (.roundsNext hv hd he hst hw)⟩ h2)
            · have hb := Interp.Sim.hangs_block (forever hp hG k ⟨fun out ws e h => hd ⟨out, ws, e, h⟩, fun hw => hs.2 (.roundsBody hv hw)⟩ hft ht ha.enter)
              exact Interp.Sim.hangs_forBody hev (scalar_truthy true) (Interp.Sim.exec_le (by omega) hb)
        obtain ⟨σ₁, h1, h2⟩ := counter hx hs' hv ha
        refine Interp.Sim.hangs_head (Interp.Sim.hangs_for (exec_refines h1) (turns k (Nat.le_refl _) _ σ₁ ⟨fun out ws e hd => ?_, fun hw => hs.2 (.count hv hw)⟩ h2))
        obtain ⟨l, us, rfl⟩ := rounds_shape hp hG hd ⟨hcf, hm, hsf, hft⟩ hy hz ht h2
        by_cases he : e = .next
        · subst he
          exact hs.1 _ _ _ (.count hv hd .done)
        · exact hs.1 _ _ _ (.countLeft hv hd he)
      | leave => exact absurd .leave (hs.1 _ _ _)
      | block ht hb =>
        cases hf with
        | block hft hf => exact Interp.Sim.hangs_head (inner hft ht ha hs)
      | brk => exact absurd .brk (hs.1 _ _ _)
      | cont => exact absurd .cont (hs.1 _ _ _)
      | @ret _ a =>
        cases hv : value (ints vs) a with
        | none => exact absurd (.ret hv) hs.2
        | some i => exact absurd (.ret hv) (hs.1 _ _ _)
    · obtain ⟨st, b, g', σ', rfl, i1, i2, i3, i4⟩ := first hp hG hd hf hc ha
      exact Interp.Sim.hangs_tail (exec_refines i1) (forever hp hG k hs i2 i3 i4)

end Verif.Whole
