import Verif.Model.TestDecl
import Verif.Props.Registry

/-! # C108: declarations of tests -/

namespace Caitlyn
namespace TestDecl
open Registry Spec

/-- The underscore. -/
abbrev us : Chr := ⟨b!"_"⟩

/-- Words joined by underscores. -/
def join : List Str → Str
  | [] => []
  | [w] => w
  | w :: v :: ws => w ++ us :: join (v :: ws)

theorem append_us_inj {a b x y : Str} (ha : us ∉ a) (hb : us ∉ b) (h : a ++ us :: x = b ++ us :: y) : a = b ∧ x = y := by
  induction a generalizing b with
  | nil =>
    cases b with
    | nil => exact ⟨rfl, (List.cons.inj h).2⟩
    | cons c b => exact absurd (List.mem_cons_self) ((List.cons.inj h).1 ▸ hb)
  | cons c a ih =>
    cases b with
    | nil => exact absurd (List.mem_cons_self) ((List.cons.inj h).1 ▸ ha)
    | cons d b =>
      obtain ⟨h1, h2⟩ := List.cons.inj h
      have := ih (fun h => ha (List.mem_cons_of_mem _ h)) (fun h => hb (List.mem_cons_of_mem _ h)) h2
      exact ⟨by rw [h1, this.1], this.2⟩

/-- The words can be read off. -/
theorem join_inj : ∀ {ws vs : List Str}, ws ≠ [] → vs ≠ [] → (∀ w ∈ ws, us ∉ w) → (∀ w ∈ vs, us ∉ w) →
    join ws = join vs → ws = vs
  | [], _, h, _, _, _, _ => absurd rfl h
  | _, [], _, h, _, _, _ => absurd rfl h
  | [w], [v], _, _, _, _, h => by simpa [join] using h
  | [w], v :: v' :: vs, _, _, hw, _, h => by
    have : us ∈ w := by
      have h' : w = v ++ us :: join (v' :: vs) := h
      rw [h']; simp
    exact absurd this (hw w (by simp))
  | w :: w' :: ws, [v], _, _, _, hv, h => by
    have : us ∈ v := by
      have h' : w ++ us :: join (w' :: ws) = v := h
      rw [← h']; simp
    exact absurd this (hv v (by simp))
  | w :: w' :: ws, v :: v' :: vs, _, _, hw, hv, h => by
    obtain ⟨h1, h2⟩ := append_us_inj (hw w (by simp)) (hv v (by simp)) h
    have := join_inj (ws := w' :: ws) (vs := v' :: vs) (by simp) (by simp) (fun x hx => hw x (List.mem_cons_of_mem _ hx))
      (fun x hx => hv x (List.mem_cons_of_mem _ hx)) h2
    rw [h1, this]

/-- The words of the declared names. -/
def words : Decl → List (List Str)
  | .test s c _ => [[s, c], [s, c, c!"Registrar"], [s, c, c!"Registrar", c!"Instance"]]
  | .testF _ c _ => [[c, c!"Fixture"], [c, c!"Registrar"], [c, c!"Registrar", c!"Instance"]]

theorem names_words (d : Decl) : d.names = (words d).map join := by
  cases d <;> simp [Decl.names, words, join, paste, List.append_assoc]

/-- The names in a use of a macro are plain: characters of UTF-8 shape and no underscore. -/
def Plain (d : Decl) : Prop :=
  (us ∉ d.suite ∧ us ∉ d.case) ∧ (∀ c ∈ d.suite, Shape c.data) ∧ ∀ c ∈ d.case, Shape c.data

theorem words_plain {d : Decl} (h : Plain d) : ∀ ws ∈ words d, ws ≠ [] ∧ ∀ w ∈ ws, us ∉ w := by
  have e1 : us ∉ (c!"Registrar" : Str) := by decide
  have e2 : us ∉ (c!"Instance" : Str) := by decide
  have e3 : us ∉ (c!"Fixture" : Str) := by decide
  obtain ⟨⟨h1, h2⟩, _⟩ := h
  intro ws hws
  cases d <;> simp only [words, Decl.suite, Decl.case, List.mem_cons, List.not_mem_nil, or_false] at hws h1 h2 <;>
    rcases hws with rfl | rfl | rfl <;> refine ⟨by simp, ?_⟩ <;> intro w hw <;>
    simp only [List.mem_cons, List.not_mem_nil, or_false] at hw <;>
    first
      | (rcases hw with rfl | rfl <;> assumption)
      | (rcases hw with rfl | rfl | rfl <;> assumption)
      | (rcases hw with rfl | rfl | rfl | rfl <;> assumption)

/-- Two tests do not get into each other's way: two `TEST`s differ in suite or case, two `TEST_F`s in the case, and a `TEST` whose
suite is the case of a `TEST_F` is not called `Fixture` or `Registrar`. -/
def Apart : Decl → Decl → Prop
  | .test s c _, .test s' c' _ => ¬ (s = s' ∧ c = c')
  | .testF _ c _, .testF _ c' _ => c ≠ c'
  | .test s c _, .testF _ c' _ => ¬ (s = c' ∧ (c = c!"Fixture" ∨ c = c!"Registrar"))
  | .testF _ c' _, .test s c _ => ¬ (s = c' ∧ (c = c!"Fixture" ∨ c = c!"Registrar"))

theorem Apart.symm {d d' : Decl} (h : Apart d d') : Apart d' d := by
  cases d <;> cases d' <;> simp only [Apart] at h ⊢
  · exact fun ⟨a, b⟩ => h ⟨a.symm, b.symm⟩
  · exact h
  · exact h
  · exact fun a => h a.symm

theorem words_apart {d d' : Decl} (h : Apart d d') : ∀ ws ∈ words d, ∀ vs ∈ words d', ws ≠ vs := by
  have e1 : (c!"Registrar" : Str) ≠ c!"Instance" := by decide
  have e2 : (c!"Fixture" : Str) ≠ c!"Registrar" := by decide
  intro ws hws vs hvs e
  cases d <;> cases d' <;>
    simp only [words, Apart, List.mem_cons, List.not_mem_nil, or_false] at hws hvs h <;>
    rcases hws with rfl | rfl | rfl <;> rcases hvs with rfl | rfl | rfl <;>
    simp only [List.cons.injEq, and_true, List.cons_ne_nil, reduceCtorEq, and_false] at e <;>
    simp_all

theorem words_nodup (d : Decl) : (words d).Nodup := by
  have e2 : (c!"Fixture" : Str) ≠ c!"Registrar" := by decide
  cases d <;> simp [words, e2]

/-- Names of tests that are apart differ. -/
theorem names_apart {d d' : Decl} (hd : Plain d) (hd' : Plain d') (h : Apart d d') :
    ∀ n ∈ d.names, ∀ n' ∈ d'.names, n ≠ n' := by
  rw [names_words, names_words]
  simp only [List.mem_map]
  rintro n ⟨ws, hws, rfl⟩ n' ⟨vs, hvs, rfl⟩ e
  exact words_apart h ws hws vs hvs
    (join_inj (words_plain hd ws hws).1 (words_plain hd' vs hvs).1 (words_plain hd ws hws).2 (words_plain hd' vs hvs).2 e)

theorem names_nodup {d : Decl} (hd : Plain d) : d.names.Nodup := by
  rw [names_words, List.Nodup, List.pairwise_map]
  refine (words_nodup d).imp_of_mem ?_
  intro ws vs hws hvs hne e
  exact hne (join_inj (words_plain hd ws hws).1 (words_plain hd vs hvs).1 (words_plain hd ws hws).2 (words_plain hd vs hvs).2 e)

theorem symbol_mem (d : Decl) : ∃ n ∈ d.names, d.symbol = .function n ∨ d.symbol = .run n := by
  cases d with
  | test s c b => exact ⟨paste s c, by simp [Decl.names], .inl rfl⟩
  | testF f c b => exact ⟨paste c c!"Fixture", by simp [Decl.names], .inr rfl⟩

theorem symbol_apart {d d' : Decl} (hd : Plain d) (hd' : Plain d') (h : Apart d d') : d.symbol ≠ d'.symbol := by
  intro e
  obtain ⟨n, hn, hs⟩ := symbol_mem d
  obtain ⟨n', hn', hs'⟩ := symbol_mem d'
  rw [e] at hs
  refine names_apart hd hd' h n hn n' hn' ?_
  rcases hs with hs | hs <;> rcases hs' with hs' | hs' <;> rw [hs'] at hs <;> cases hs <;> rfl

/-- **C108 (building).** A program whose tests have plain names and are pairwise apart can be built: no translation unit declares
a name twice and no symbol is defined twice, however the tests are distributed over translation units. Missing: names with
underscores and two `TEST_F`s with the same case name, see `C108_underscore_fails` and `C108_fixture_fails`. -/
theorem C108_builds_partial (p : List (List Decl)) (h1 : ∀ d ∈ p.flatten, Plain d) (h2 : p.flatten.Pairwise Apart) : Builds p := by
  refine ⟨fun tu htu => ?_, ?_⟩
  · have hsub : tu.Sublist p.flatten := by
      clear h1 h2
      induction p with
      | nil => cases htu
      | cons t p ih =>
        rw [List.flatten_cons]
        rcases List.mem_cons.1 htu with rfl | h
        · exact List.sublist_append_left _ _
        · exact (ih h).trans (List.sublist_append_right _ _)
    rw [List.Nodup, List.pairwise_flatMap]
    refine ⟨fun d hd => names_nodup (h1 d (hsub.subset hd)), ?_⟩
    refine (h2.sublist hsub).imp_of_mem ?_
    intro a b ha hb hab x hx y hy
    exact names_apart (h1 a (hsub.subset ha)) (h1 b (hsub.subset hb)) hab x hx y hy
  · rw [List.Nodup, List.pairwise_map]
    exact h2.imp_of_mem fun ha hb hab => symbol_apart (h1 _ ha) (h1 _ hb) hab

theorem InitOrder.perm {p : List (List Decl)} {order : List Decl} (h : InitOrder p order) : order.Perm p.flatten := by
  induction h with
  | done p h => rw [List.flatten_eq_nil_iff.2 h]
  | step before d tu after order _ ih =>
    rw [List.flatten_append, List.flatten_cons] at ih ⊢
    rw [List.cons_append]
    exact (ih.cons d).trans List.perm_middle.symm

/-- What a declaration registers. -/
def entry (d : Decl) : Str × Str × Nat := (d.suite, d.case, d.body)

theorem find_nodup {α β : Type} [DecidableEq β] (f : α → β) : ∀ {l : List α}, (l.map f).Nodup → ∀ {x : α}, x ∈ l →
    l.find? (fun y => f y = f x) = some x
  | [], _, x, h => nomatch h
  | a :: l, hn, x, h => by
    rw [List.map_cons, List.nodup_cons] at hn
    rcases List.mem_cons.1 h with rfl | h
    · simp
    · have : f a ≠ f x := fun e => hn.1 (e ▸ List.mem_map_of_mem h)
      rw [List.find?_cons_of_neg (by simpa using this)]
      exact find_nodup f hn.2 h

theorem ofStdString_shapes (s : Str) (h : ∀ c ∈ s, Shape c.data) : Str.ofStdString (Str.str s) = .ok s := by
  rw [Str.ofStdString, Str.str_shapes s h, Str.ofCStr_shapes]
  · rw [List.map_map]; exact congrArg _ (List.map_id s)
  · intro p hp
    obtain ⟨c, hc, rfl⟩ := List.mem_map.1 hp
    exact h c hc

/-- **C108 (registration).** If a program can be built and its names are UTF-8, then for every order of initialisation that C++
allows, the registry at the start of `main` holds what the history of the calls `AddTest(suite, case, body)` makes: one call for
each declaration, with the body that follows it. -/
theorem C108_registers (p : List (List Decl)) (hb : Builds p)
    (hs : ∀ d ∈ p.flatten, (∀ c ∈ d.suite, Shape c.data) ∧ ∀ c ∈ d.case, Shape c.data)
    (order : List Decl) (ho : InitOrder p order) (w : World) :
    initialise p order = .ok (registryAfter w (order.map fun d => .add d.suite d.case d.body)) ∧
      (registered (order.map fun d => .add d.suite d.case d.body)).Perm (p.flatten.map entry) := by
  have hperm := ho.perm
  constructor
  · have gen : ∀ (l : List Decl) (st : State), (∀ d ∈ l, d ∈ p.flatten) →
        l.foldlM (fun st d => register p d st) st = (.ok (l.foldl (fun st d => addTest d.suite d.case d.body st) st) : Res State) := by
      intro l
      induction l with
      | nil => intro st _; rfl
      | cons d l ih =>
        intro st hl
        have hd := hl d List.mem_cons_self
        have hr : register p d st = .ok (addTest d.suite d.case d.body st) := by
          have hf : resolve p d.symbol = some d.body := by
            rw [resolve, find_nodup Decl.symbol hb.2 hd]; rfl
          simp only [register, ofStdString_shapes _ (hs d hd).1, ofStdString_shapes _ (hs d hd).2, hf]
          rfl
        rw [List.foldlM_cons, hr]
        exact ih _ fun x hx => hl x (List.mem_cons_of_mem _ hx)
    rw [initialise, gen order {} fun d hd => hperm.subset hd, registryAfter, List.foldl_map]
  · have : registered (order.map fun d => RegistryOp.add d.suite d.case d.body) = order.map entry := by
      rw [registered, List.filterMap_map]
      exact List.filterMap_eq_map (f := entry) ▸ rfl
    rw [this]
    exact hperm.map entry

/-- **C108 (each test runs once).** A program that can be built runs, in `main`, each declared test exactly once under its own
names, whatever the distribution over translation units and the order of initialisation, if the messages of exceptions are
readable (see C78). -/
theorem C108_once_partial (p : List (List Decl)) (hb : Builds p)
    (hs : ∀ d ∈ p.flatten, (∀ c ∈ d.suite, Shape c.data) ∧ ∀ c ∈ d.case, Shape c.data)
    (order : List Decl) (ho : InitOrder p order) (w : World) (hr : ∀ i, Readable w i) :
    ∃ st, initialise p order = .ok st ∧ st.log = [] ∧ (runAll w st).1.log.Perm (p.flatten.map entry) := by
  obtain ⟨h1, h2⟩ := C108_registers p hb hs order ho w
  obtain ⟨executed, h3, h4⟩ := C78_once_partial w (order.map fun d => .add d.suite d.case d.body) hr
  have hlog : (registryAfter w (order.map fun d => RegistryOp.add d.suite d.case d.body)).log = [] := by
    have gen : ∀ (l : List Decl) (st : State),
        (l.foldl (fun st d => addTest d.suite d.case d.body st) st).log = st.log := by
      intro l
      induction l with
      | nil => intro st; rfl
      | cons d l ih => intro st; exact ih _
    rw [registryAfter, List.foldl_map]
    exact gen order {}
  refine ⟨_, h1, hlog, ?_⟩
  rw [← registryAfter_run, h3, hlog]
  exact h4.trans h2

/-- **C108 fails with underscores.** `TEST(A_B, C)` and `TEST(A, B_C)` are different tests and cannot be in one program, be it in
different translation units. -/
theorem C108_underscore_fails :
    let a := Decl.test c!"A_B" c!"C" 0
    let b := Decl.test c!"A" c!"B_C" 1
    entry a ≠ entry b ∧ a.suite ≠ b.suite ∧ ¬ Builds [[a, b]] ∧ ¬ Builds [[a], [b]] := by
  refine ⟨by decide, by decide, fun h => ?_, fun h => ?_⟩
  · exact absurd h.2 (by decide)
  · exact absurd h.2 (by decide)

/-- **C108 fails for fixtures.** Two tests of the same name in different fixtures can never be in one program: `TEST_F` makes its
names from the case alone. -/
theorem C108_fixture_fails (f g c : Str) (b b' : Nat) (p : List (List Decl))
    (h : [Decl.testF f c b, Decl.testF g c b'].Sublist p.flatten) : ¬ Builds p := by
  intro hb
  have := hb.2.sublist (h.map Decl.symbol)
  simp [Decl.symbol] at this

/-- **C108 (fixtures).** If the constructor of a fixture, when it succeeds, takes the state of the program from `P` to `Q`, and
otherwise leaves `P`, the destructor goes back to `P`, and the bodies keep `Q`, then `P` holds after every series of tests with the
fixture, whether they pass or throw: what the constructor acquires is released. If the constructor succeeds the outcome of the
test is that of its body, run on the fixture just constructed. -/
theorem C108_fixture {γ σ : Type} (f : Fixture γ σ) (P : γ → Prop) (Q : σ → γ → Prop)
    (hc : ∀ g, P g → match f.construct g with
      | (.error _, g') => P g'
      | (.ok x, g') => Q x g')
    (hd : ∀ x g, Q x g → P (f.destroy x g))
    (bodies : List (σ → γ → Outcome × σ × γ))
    (hb : ∀ body ∈ bodies, ∀ x g, Q x g → Q (body x g).2.1 (body x g).2.2) (g : γ) (hg : P g) :
    P (bodies.foldl (fun g body => (runFixture f body g).2) g) ∧
      ∀ body ∈ bodies, ∀ x g', f.construct g = (.ok x, g') → (runFixture f body g).1 = (body x g').1 := by
  constructor
  · induction bodies generalizing g with
    | nil => exact hg
    | cons body bodies ih =>
      refine ih (fun b h => hb b (List.mem_cons_of_mem _ h)) _ ?_
      have := hc g hg
      show P (runFixture f body g).2
      unfold runFixture
      cases hk : f.construct g with
      | mk r g' =>
        rw [hk] at this
        cases r with
        | error o => exact this
        | ok x => exact hd _ _ (hb body List.mem_cons_self x g' this)
  · intro body _ x g' h
    simp only [runFixture, h]

/-- A program in two translation units with both macros. -/
def demo : List (List Decl) :=
  [[.test c!"Str" c!"Append" 0, .testF c!"Db" c!"Insert" 1], [.test c!"Str" c!"Insert" 2, .testF c!"Net" c!"Send" 3]]

theorem shapes_of (s : Str) (h : ∀ c ∈ s, Chr.isValidUtf8Char c.data = true ∧ c.data ≠ [0]) : ∀ c ∈ s, Shape c.data :=
  fun c hc => ((Chr.isValid_iff _).1 (h c hc).1).resolve_right (h c hc).2

theorem demo_plain : ∀ d ∈ demo.flatten, Plain d := by
  have h : ∀ d ∈ demo.flatten, (us ∉ d.suite ∧ us ∉ d.case) ∧
      (∀ c ∈ d.suite, Chr.isValidUtf8Char c.data = true ∧ c.data ≠ [0]) ∧
      ∀ c ∈ d.case, Chr.isValidUtf8Char c.data = true ∧ c.data ≠ [0] := by decide +kernel
  exact fun d hd => ⟨(h d hd).1, shapes_of _ (h d hd).2.1, shapes_of _ (h d hd).2.2⟩

example : Builds demo := C108_builds_partial demo demo_plain (by simp [demo, Apart])

example : InitOrder demo [.test c!"Str" c!"Insert" 2, .test c!"Str" c!"Append" 0, .testF c!"Db" c!"Insert" 1,
    .testF c!"Net" c!"Send" 3] :=
  .step [_] _ _ [] _ (.step [] _ _ [_] _ (.step [] _ _ [_] _ (.step [_] _ _ [] _ (.done _ (by simp)))))

/-- A fixture that counts open resources; its constructor throws if there are already three. -/
def counting : Fixture Nat Unit where
  construct n := if n < 3 then (.ok (), n + 1) else (.error .throwsOther, n)
  destroy _ n := n - 1

example : runFixture counting (fun _ n => (.throwsOther, (), n)) 0 = (.throwsOther, 0) ∧
    runFixture counting (fun _ n => (.returns, (), n)) 3 = (.throwsOther, 3) := by decide

end TestDecl
end Caitlyn
