import Verif.Model.CiPlugins
/-!
# C158: links to logs; C159: the coverage plugin
-/
namespace Slash.Ci

/-! ## C158 -/

theorem rstrip_spec (s : Str) : ∃ k, s = rstripSlash s ++ List.replicate k '/' ∧ ∀ t, rstripSlash s ≠ t ++ ['/'] := by
  unfold rstripSlash
  refine ⟨(s.reverse.takeWhile (· == '/')).length, ?_, ?_⟩
  · have h1 : s.reverse.takeWhile (· == '/') = List.replicate (s.reverse.takeWhile (· == '/')).length '/' := by
      apply List.eq_replicate_iff.2
      refine ⟨rfl, fun c hc => ?_⟩
      have := List.all_eq_true.1 List.all_takeWhile c hc
      simpa using this
    have h2 := congrArg List.reverse (List.takeWhile_append_dropWhile (p := (· == '/')) (l := s.reverse))
    rw [List.reverse_append, List.reverse_reverse] at h2
    rw [h1, List.reverse_replicate] at h2
    exact h2.symm
  · intro t h
    have h2 := congrArg List.reverse h
    simp only [List.reverse_reverse, List.reverse_append, List.reverse_cons, List.reverse_nil, List.nil_append, List.singleton_append] at h2
    have h3 := List.head?_dropWhile_not (p := (· == '/')) (l := s.reverse)
    rw [h2] at h3
    simp at h3

theorem format_text (f : Str → Option Str) (a t : Str) (h : '%' ∉ a) : format f .text (a ++ t) = (format f .text t).map (a ++ ·) := by
  induction a with
  | nil => simp
  | cons c a ih =>
    have hc : c ≠ '%' := fun hc => h (by simp [hc])
    simp only [List.cons_append, format, if_neg hc]
    rw [ih (fun hm => h (by simp [hm]))]
    cases format f .text t <;> simp

theorem format_name (f : Str → Option Str) (n a t : Str) (h : ')' ∉ a) : format f (.name n) (a ++ t) = format f (.name (n ++ a)) t := by
  induction a generalizing n with
  | nil => simp
  | cons c a ih =>
    have hc : c ≠ ')' := fun hc => h (by simp [hc])
    simp only [List.cons_append, format, if_neg hc]
    rw [ih (n ++ [c]) (fun hm => h (by simp [hm]))]
    simp

theorem format_ref (f : Str → Option Str) (n t : Str) (h : ')' ∉ n) (v : Str) (hv : f n = some v) :
    format f .text ('%' :: '(' :: (n ++ ')' :: 's' :: t)) = (format f .text t).map (v ++ ·) := by
  simp only [format, if_true, if_neg (show ¬ ('(' = '%') by decide)]
  rw [format_name f [] n _ h]
  simp [format, hv]

theorem format_ref' (f : Str → Option Str) (n t : Str) (h : ')' ∉ n) (v : Str) (hv : f n = some v) :
    format f .text (('%' :: '(' :: (n ++ [')', 's'])) ++ t) = (format f .text t).map (v ++ ·) := by
  rw [← format_ref f n t h v hv]
  simp

/-- Pieces of a template. -/
inductive Piece
  | lit (s : Str)
  | url
  | path
  | percent

/-- How a piece is written. -/
def Piece.src : Piece → Str
  | .lit s => s
  | .url => "%(build_url)s".toList
  | .path => "%(log_path)s".toList
  | .percent => ['%', '%']

/-- What a piece stands for. -/
def Piece.val (url path : Str) : Piece → Str
  | .lit s => s
  | .url => url
  | .path => path
  | .percent => ['%']

/-- With the address of a build and a log file, each test gets the link its template describes: the address without slashes at its end, the path
with forward slashes. -/
theorem C158_link (ps : List Piece) (hp : ∀ s, Piece.lit s ∈ ps → '%' ∉ s) (sep : Char) (url log : Str) :
    ∃ base k, url = base ++ List.replicate k '/' ∧ (∀ t, base ≠ t ++ ['/']) ∧
      testEnd (ps.flatMap Piece.src) sep (some url) (some log) =
        .link (ps.flatMap (Piece.val base (log.map fun c => if c = sep then '/' else c))) := by
  obtain ⟨k, h1, h2⟩ := rstrip_spec url
  refine ⟨rstripSlash url, k, h1, h2, ?_⟩
  have key : ∀ qs : List Piece, (∀ s, Piece.lit s ∈ qs → '%' ∉ s) → ∀ u p, format (mapping u p) .text (qs.flatMap Piece.src) = some (qs.flatMap (Piece.val u p)) := by
    intro qs hq u p
    induction qs with
    | nil => rfl
    | cons q qs ih =>
      have ih' := ih (fun s hs => hq s (by simp [hs]))
      simp only [List.flatMap_cons]
      cases q with
      | lit s =>
        rw [show Piece.src (.lit s) = s from rfl, format_text _ _ _ (hq s (by simp)), ih']
        rfl
      | url =>
        have hs : Piece.src .url = '%' :: '(' :: ("build_url".toList ++ [')', 's']) := by decide
        have hm : mapping u p "build_url".toList = some u := by
          unfold mapping
          exact if_pos rfl
        rw [hs, format_ref' (mapping u p) _ (qs.flatMap Piece.src) (by decide) u hm, ih']
        rfl
      | path =>
        have hs : Piece.src .path = '%' :: '(' :: ("log_path".toList ++ [')', 's']) := by decide
        have hne : ¬ "log_path".toList = "build_url".toList := by decide
        have hm : mapping u p "log_path".toList = some p := by
          unfold mapping
          rw [if_neg hne, if_pos rfl]
        rw [hs, format_ref' (mapping u p) _ (qs.flatMap Piece.src) (by decide) p hm, ih']
        rfl
      | percent =>
        rw [show Piece.src .percent = ['%', '%'] from rfl]
        have h : ∀ t, format (mapping u p) .text (['%', '%'] ++ t) = (format (mapping u p) .text t).map ('%' :: ·) := fun t => by
          simp only [List.cons_append, List.nil_append, format, if_true]
        rw [h, ih']
        rfl
  unfold testEnd buildUrl
  simp only [Option.map_some]
  rw [key ps hp]
  rfl

/-- The default template. -/
theorem C158_default : defaultTemplate = [Piece.url, .lit "/artifact/".toList, .path].flatMap Piece.src := by decide

/-- Without the address of a build nothing is added, and nothing fails. -/
theorem C158_no_build (template : Str) (sep : Char) (log : Option Str) : testEnd template sep none log = .nothing := rfl

/-- A test without a log file gets an error of the plugin. -/
theorem C158_no_log_violated (template : Str) (sep : Char) (url : Str) : testEnd template sep (some url) none = .raises := rfl

-- A link as with Jenkins.
example : testEnd defaultTemplate '\\' (some "http://ci/job/7//".toList) (some "logs\\a\\b.log".toList) =
    .link "http://ci/job/7/artifact/logs/a/b.log".toList := by decide

-- A template that is none.
example : testEnd "100%".toList '/' (some "x".toList) (some "y".toList) = .raises := by decide

/-! ## C159 -/

/-- How reports are named. -/
def Rep.nm : Rep → Str
  | .html => "html".toList
  | .xml => "xml".toList

/-- Names with commas between them. -/
def commas : List Str → Str
  | [] => []
  | [n] => n
  | n :: m :: ns => n ++ ',' :: commas (m :: ns)

theorem splitComma_ne (acc s : Str) : splitComma acc s ≠ [] := by
  induction s generalizing acc with
  | nil => simp [splitComma]
  | cons c s ih =>
    unfold splitComma
    split
    · simp
    · exact ih _

theorem commas_splitComma (acc s : Str) : commas (splitComma acc s) = acc ++ s := by
  induction s generalizing acc with
  | nil => simp [splitComma, commas]
  | cons c s ih =>
    unfold splitComma
    split
    · rename_i hc
      subst hc
      rcases h : splitComma [] s with _ | ⟨n, ns⟩
      · exact absurd h (splitComma_ne [] s)
      · have := ih []
        rw [h] at this
        simp only [commas, this, List.nil_append]
    · rw [ih]; simp

theorem splitComma_free (acc a : Str) (h : ',' ∉ a) : splitComma acc a = [acc ++ a] := by
  induction a generalizing acc with
  | nil => simp [splitComma]
  | cons c a ih =>
    have hc : c ≠ ',' := fun hc => h (by simp [hc])
    simp only [splitComma, if_neg hc]
    rw [ih _ (fun hm => h (by simp [hm]))]
    simp

theorem splitComma_append (acc a t : Str) (h : ',' ∉ a) : splitComma acc (a ++ ',' :: t) = (acc ++ a) :: splitComma [] t := by
  induction a generalizing acc with
  | nil => simp [splitComma]
  | cons c a ih =>
    have hc : c ≠ ',' := fun hc => h (by simp [hc])
    simp only [List.cons_append, splitComma, if_neg hc]
    rw [ih _ (fun hm => h (by simp [hm]))]
    simp

theorem splitComma_commas (ns : List Str) (hne : ns ≠ []) (h : ∀ n ∈ ns, ',' ∉ n) : splitComma [] (commas ns) = ns := by
  induction ns with
  | nil => exact absurd rfl hne
  | cons n ns ih =>
    cases ns with
    | nil => simpa [commas] using splitComma_free [] n (h n (by simp))
    | cons m ms =>
      simp only [commas]
      rw [splitComma_append [] n _ (h n (by simp)), ih (by simp) (fun x hx => h x (by simp [hx]))]
      simp

theorem repOf_some (n : Str) (r : Rep) : repOf n = some r ↔ n = r.nm := by
  unfold repOf
  constructor
  · intro h
    split at h
    · rename_i hn; cases h; exact hn
    · split at h
      · rename_i hn; cases h; exact hn
      · cases h
  · rintro rfl
    cases r <;> decide

theorem mapM_repOf (ns : List Str) (rs : List Rep) : ns.mapM repOf = some rs ↔ ns = rs.map Rep.nm := by
  induction ns generalizing rs with
  | nil => cases rs <;> simp
  | cons n ns ih =>
    rw [List.mapM_cons]
    rcases h : repOf n with _ | r
    · simp only [bind, Option.bind_none, reduceCtorEq, false_iff]
      intro hc
      cases rs with
      | nil => simp at hc
      | cons r rs =>
        simp only [List.map_cons, List.cons.injEq] at hc
        rw [(repOf_some n r).2 hc.1] at h
        cases h
    · rw [repOf_some] at h
      cases rs with
      | nil => rcases hm : ns.mapM repOf with _ | l <;> simp [bind, hm]
      | cons r' rs =>
        have hinj : r.nm = r'.nm ↔ r = r' := by cases r <;> cases r' <;> decide
        rcases hm : ns.mapM repOf with _ | l
        · simp only [bind, Option.bind_some, Option.bind_none, reduceCtorEq, false_iff, List.map_cons, List.cons.injEq, not_and]
          intro _ hn
          rw [(ih rs).2 hn] at hm
          cases hm
        · simp only [bind, Option.bind_some, pure, Option.some.injEq, List.cons.injEq, List.map_cons]
          have h3 := ih rs
          rw [hm, Option.some.injEq] at h3
          rw [h3, h, hinj]

/-- The plugin can be activated exactly if the types of reports are one or more of `html` and `xml` with commas between them, and then these are the
reports to make. -/
theorem C159_types (types : Str) (rs : List Rep) : reporters types = some rs ↔ rs ≠ [] ∧ types = commas (rs.map Rep.nm) := by
  unfold reporters
  rw [mapM_repOf]
  constructor
  · intro h
    refine ⟨?_, ?_⟩
    · rintro rfl
      exact splitComma_ne [] types (by simpa using h)
    · rw [← h, commas_splitComma]
      rfl
  · rintro ⟨hne, rfl⟩
    apply splitComma_commas
    · simpa using hne
    · intro n hn
      obtain ⟨r, _, rfl⟩ := List.mem_map.1 hn
      cases r <;> decide

/-- The data of different workers, and of the session that is none, are in different files. -/
theorem C159_files (a b : Role) (h : dataFile a = dataFile b) : a = b ∨ ((∀ w, a ≠ .child w) ∧ ∀ w, b ≠ .child w) := by
  have h1 : ∀ (l w : Str), l ++ '.' :: w ≠ l := by
    intro l w hl
    have := congrArg List.length hl
    simp at this
  have h2 : ∀ (l w v : Str), l ++ '.' :: w = l ++ '.' :: v → w = v := fun l w v hl => by simpa using hl
  cases a with
  | child w =>
    cases b with
    | child v => exact .inl (congrArg Role.child (h2 _ _ _ h))
    | alone => exact absurd h (h1 _ _)
    | parent => exact absurd h (h1 _ _)
  | alone =>
    cases b with
    | child v => exact absurd h.symm (h1 _ _)
    | alone => exact .inl rfl
    | parent => exact .inr ⟨fun _ hw => (by cases hw), fun _ hw => (by cases hw)⟩
  | parent =>
    cases b with
    | child v => exact absurd h.symm (h1 _ _)
    | alone => exact .inr ⟨fun _ hw => (by cases hw), fun _ hw => (by cases hw)⟩
    | parent => exact .inl rfl

theorem hasInfix_iff (p s : Str) : hasInfix p s = true ↔ ∃ a b, s = a ++ p ++ b := by
  induction s with
  | nil =>
    simp only [hasInfix, List.isEmpty_iff]
    constructor
    · rintro rfl; exact ⟨[], [], rfl⟩
    · rintro ⟨a, b, h⟩
      have := congrArg List.length h
      simp only [List.length_nil, List.length_append] at this
      exact List.eq_nil_of_length_eq_zero (by omega)
  | cons c s ih =>
    simp only [hasInfix, Bool.or_eq_true, List.isPrefixOf_iff_prefix, ih]
    constructor
    · rintro (⟨b, hb⟩ | ⟨a, b, hb⟩)
      · exact ⟨[], b, hb.symm⟩
      · exact ⟨c :: a, b, by simp [hb]⟩
    · rintro ⟨a, b, h⟩
      cases a with
      | nil => exact .inl ⟨b, h.symm⟩
      | cons x a =>
        simp only [List.cons_append, List.cons.injEq] at h
        exact .inr ⟨a, b, h.2⟩

/-- Exceptions that do not matter: those of the package about missing data. -/
def Harmless (e : CovExc) : Prop := e.coverage = true ∧ ∃ a b, e.msg.map Char.toLower = a ++ ['n', 'o', ' ', 'd', 'a', 't', 'a'] ++ b

theorem harmless_iff (e : CovExc) : (e.coverage && noData e.msg) = true ↔ Harmless e := by
  rw [Bool.and_eq_true, noData, hasInfix_iff]
  exact Iff.rfl

/-- Workers save their data and report nothing. -/
theorem C159_child (p : Pkg) (w : Str) (report : Bool) (rs : List Rep) : sessionEnd p (.child w) report rs = ([.stop, .save], none) := by
  have h : ∀ n, turns p (.child w) n rs = ([], none) := by
    induction rs with
    | nil => intro n; rfl
    | cons r rs ih => intro n; exact ih (n + 1)
  unfold sessionEnd
  rw [h]
  cases report <;> rfl

/-- The calls for one report. -/
def callsFor (role : Role) (r : Rep) : List Call := if role = .parent then [.combine, .report r] else [.report r]

/-- In other sessions the data are saved first, and then each report is made once, in order, with the data of the workers; the session does not
fail because there are no data. -/
theorem C159_reports (p : Pkg) (role : Role) (hr : ∀ w, role ≠ .child w) (rs : List Rep) (hc : ∀ n, p.combine n = none)
    (hp : ∀ n r e, p.report n r = some e → Harmless e) :
    sessionEnd p role true rs = ([.stop, .save] ++ rs.flatMap (callsFor role), none) := by
  have h : ∀ n, turns p role n rs = (rs.flatMap (callsFor role), none) := by
    induction rs with
    | nil => intro n; rfl
    | cons r rs ih =>
      intro n
      have ht : turn p role n r = (callsFor role r, none) := by
        unfold turn callsFor
        have h0 : (if role = .parent then p.combine n else none) = none := by
          split
          · exact hc n
          · rfl
        rw [h0]
        simp only [Prod.mk.injEq, true_and]
        rcases hpr : p.report n r with _ | e
        · rfl
        · exact if_pos ((harmless_iff e).2 (hp n r e hpr))
      unfold turns
      cases role with
      | child w => exact absurd rfl (hr w)
      | alone => simp only [ht, ih, List.flatMap_cons]
      | parent => simp only [ht, ih, List.flatMap_cons]
  unfold sessionEnd
  rw [h]
  rfl

/-- Without reports, the data are saved all the same. -/
theorem C159_saved (p : Pkg) (role : Role) (report : Bool) (rs : List Rep) : ∃ cs, (sessionEnd p role report rs).1 = .stop :: .save :: cs ∧
    (report = false → cs = []) := by
  unfold sessionEnd
  cases report
  · exact ⟨[], rfl, fun _ => rfl⟩
  · exact ⟨_, rfl, fun h => by cases h⟩

/-- An exception leaves the plugin only if the package raised it and it is not about missing data. -/
theorem C159_fails (p : Pkg) (role : Role) (report : Bool) (rs : List Rep) (e : CovExc) (h : (sessionEnd p role report rs).2 = some e) :
    ¬ Harmless e ∧ ((∃ n, p.combine n = some e ∧ role = .parent) ∨ ∃ n r, r ∈ rs ∧ p.report n r = some e) := by
  have hk : (turns p role 0 rs).2 = some e := by
    unfold sessionEnd at h
    cases report
    · cases h
    · exact h
  clear h
  generalize 0 = n0 at hk
  have key : ∀ n, (turns p role n rs).2 = some e →
      ¬ Harmless e ∧ ((∃ n, p.combine n = some e ∧ role = .parent) ∨ ∃ n r, r ∈ rs ∧ p.report n r = some e) := by
    clear hk
    induction rs with
    | nil => intro n h; cases h
    | cons r rs ih =>
      intro n h
      have lift : ¬ Harmless e ∧ ((∃ n, p.combine n = some e ∧ role = .parent) ∨ ∃ n r, r ∈ rs ∧ p.report n r = some e) →
          ¬ Harmless e ∧ ((∃ n, p.combine n = some e ∧ role = .parent) ∨ ∃ n r', r' ∈ r :: rs ∧ p.report n r' = some e) := by
        rintro ⟨h1, h2 | ⟨m, q, hq, hm⟩⟩
        · exact ⟨h1, .inl h2⟩
        · exact ⟨h1, .inr ⟨m, q, by simp [hq], hm⟩⟩
      have hturn : ∀ x, (turn p role n r).2 = some x → ¬ Harmless x ∧ ((p.combine n = some x ∧ role = .parent) ∨ p.report n r = some x) := by
        intro x hx
        unfold turn at hx
        rcases hcomb : (if role = .parent then p.combine n else none) with _ | y
        · rw [hcomb] at hx
          dsimp only at hx
          rcases hpr : p.report n r with _ | y
          · rw [hpr] at hx; cases hx
          · rw [hpr] at hx
            dsimp only at hx
            split at hx
            · cases hx
            · rename_i hh
              cases hx
              exact ⟨fun hc => hh ((harmless_iff x).2 hc), .inr rfl⟩
        · rw [hcomb] at hx
          dsimp only at hx
          split at hx
          · cases hx
          · rename_i hh
            cases hx
            refine ⟨fun hc => hh ((harmless_iff x).2 hc), .inl ?_⟩
            split at hcomb
            · rename_i hr; exact ⟨hcomb, hr⟩
            · cases hcomb
      have step : (match turn p role n r with
          | (cs, some e) => (cs, some e)
          | (cs, none) => (cs ++ (turns p role (n + 1) rs).1, (turns p role (n + 1) rs).2)).2 = some e →
          ¬ Harmless e ∧ ((∃ n, p.combine n = some e ∧ role = .parent) ∨ ∃ n r', r' ∈ r :: rs ∧ p.report n r' = some e) := by
        intro h
        rcases ht : turn p role n r with ⟨cs, x | x⟩
        · rw [ht] at h
          exact lift (ih (n + 1) h)
        · rw [ht] at h
          cases h
          obtain ⟨h1, h2 | h2⟩ := hturn e (by rw [ht])
          · exact ⟨h1, .inl ⟨n, h2⟩⟩
          · exact ⟨h1, .inr ⟨n, r, by simp, h2⟩⟩
      unfold turns at h
      cases role with
      | child w => exact lift (ih (n + 1) h)
      | alone => exact step h
      | parent => exact step h
  exact key n0 hk

/-- Of combining and reporting for the `n`-th time in a session that is no worker: what is raised. -/
def Raised (p : Pkg) (role : Role) (n : Nat) (r : Rep) (e : CovExc) : Prop :=
  (role = .parent ∧ p.combine n = some e) ∨ ((role = .parent → p.combine n = none) ∧ p.report n r = some e)

theorem turn_raised {p : Pkg} {role : Role} {n : Nat} {r : Rep} {e : CovExc} (h : (turn p role n r).2 = some e) : Raised p role n r e := by
  unfold turn at h
  by_cases hr : role = .parent
  · rw [if_pos hr] at h
    rcases hc : p.combine n with _ | y
    · simp only [hc] at h
      rcases hq : p.report n r with _ | y
      · rw [hq] at h; cases h
      · rw [hq] at h
        dsimp only at h
        split at h
        · cases h
        · cases h; exact .inr ⟨fun _ => hc, hq⟩
    · simp only [hc] at h
      split at h
      · cases h
      · cases h; exact .inl ⟨hr, hc⟩
  · rw [if_neg hr] at h
    dsimp only at h
    rcases hq : p.report n r with _ | y
    · rw [hq] at h; cases h
    · rw [hq] at h
      dsimp only at h
      split at h
      · cases h
      · cases h; exact .inr ⟨fun h => absurd h hr, hq⟩

/-- The first exception of the package that is not about missing data leaves the plugin. -/
theorem C159_raises (p : Pkg) (role : Role) (pre post : List Rep) (r : Rep) (e : CovExc) (hw : ∀ w, role ≠ .child w)
    (hpre : ∀ (i : Nat) (q : Rep) (x : CovExc), pre[i]? = some q → Raised p role i q x → Harmless x)
    (hr : Raised p role pre.length r e) (he : ¬ Harmless e) : (sessionEnd p role true (pre ++ r :: post)).2 = some e := by
  have hf : (e.coverage && noData e.msg) = false := by
    rw [← Bool.not_eq_true]; exact fun h => he ((harmless_iff e).1 h)
  have unf : ∀ n q rs, turns p role n (q :: rs) = match turn p role n q with
      | (cs, some e) => (cs, some e)
      | (cs, none) => (cs ++ (turns p role (n + 1) rs).1, (turns p role (n + 1) rs).2) := by
    intro n q rs
    cases role with
    | child w => exact absurd rfl (hw w)
    | alone => rfl
    | parent => rfl
  have hit : ∀ n, Raised p role n r e → (turn p role n r).2 = some e := by
    intro n h
    unfold turn
    rcases h with ⟨h1, h2⟩ | ⟨h1, h2⟩
    · simp [h1, h2, hf]
    · by_cases hp : role = .parent
      · simp [hp, h1 hp, h2, hf]
      · simp [hp, h2, hf]
  show (turns p role 0 (pre ++ r :: post)).2 = some e
  have key : ∀ (pre : List Rep) (n : Nat),
      (∀ (i : Nat) (q : Rep) (x : CovExc), pre[i]? = some q → Raised p role (n + i) q x → Harmless x) →
      Raised p role (n + pre.length) r e → (turns p role n (pre ++ r :: post)).2 = some e := by
    intro pre
    induction pre with
    | nil =>
      intro n _ h
      have := hit n h
      rw [List.nil_append, unf]
      rcases ht : turn p role n r with ⟨cs, x⟩
      rw [ht] at this
      cases this
      rfl
    | cons q pre ih =>
      intro n hq h
      rw [List.cons_append, unf]
      rcases ht : turn p role n q with ⟨cs, _ | x⟩
      · refine ih (n + 1) (fun i q' x hi hx => hq (i + 1) q' x hi ?_) ?_
        · rwa [show n + (i + 1) = n + 1 + i by omega]
        · rwa [show n + 1 + pre.length = n + (q :: pre).length by simp; omega]
      · exfalso
        have hx := turn_raised (p := p) (role := role) (n := n) (r := q) (e := x) (by rw [ht])
        have hh := hq 0 q x rfl hx
        have hff := (harmless_iff x).2 hh
        have h2 : (turn p role n q).2 = none := by
          unfold turn
          rcases hx with ⟨h1, h2⟩ | ⟨h1, h2⟩
          · simp [h1, h2, hff]
          · by_cases hp : role = .parent
            · simp [hp, h1 hp, h2, hff]
            · simp [hp, h2, hff]
        rw [ht] at h2
        cases h2
  refine key pre 0 (fun i q x hi hx => hpre i q x hi ?_) ?_
  · rwa [Nat.zero_add] at hx
  · rwa [Nat.zero_add]

-- Two reports in the parent of workers; missing data do not matter, other exceptions do.
example : reporters "html,xml".toList = some [.html, .xml] ∧ reporters "".toList = none ∧ reporters "html,".toList = none ∧
    sessionEnd {} .parent true [.html, .xml] = ([.stop, .save, .combine, .report .html, .combine, .report .xml], none) ∧
    sessionEnd { report := fun _ _ => some ⟨true, "No data to report.".toList⟩ } .alone true [.html, .xml] =
      ([.stop, .save, .report .html, .report .xml], none) ∧
    sessionEnd { report := fun _ _ => some ⟨false, "No data to report.".toList⟩ } .alone true [.html, .xml] =
      ([.stop, .save, .report .html], some ⟨false, "No data to report.".toList⟩) := by decide

end Slash.Ci
