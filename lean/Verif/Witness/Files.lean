import Verif.Props.Logger
import Verif.Props.Range
import Verif.Props.Cond
import Verif.Props.Content
/-
Witnesses: the theorems of Props/Logger, Props/Range, Props/Cond and Props/Content applied to concrete loggers, headers
and files.
-/
namespace Verif.Witness
open Verif Verif.Spec

/-! #### Loggers -/

/-- The encoder keeps the message and nothing else. -/
def msgOnly : (Str → Option (FV Unit)) → Option Str := fun f => match f b!"message" with | some (.str s) => some s | _ => none

/-- A logger at level 4 with an error, its keys renamed. -/
def logOps : List (LogOp Unit) :=
  [.new b!"t", .setLevel 0 4, .stdKeys 0 b!"@level" b!"lvl", .error 0 (some b!"bad"), .writer 0 7]

example : ∃ name, ((3 : Int), name) ∈ levelNames ∧ Spells b!"WaRn" name := (C48_parse id b!"WaRn" (by decide) 3).1 (by decide)
example : levelParse id b!"warnin" ≠ some 3 ∧ ¬ ∃ name, ((3 : Int), name) ∈ levelNames ∧ Spells b!"warnin" name :=
  ⟨by decide, fun h => by have := (C48_parse id b!"warnin" (by decide) 3).2 h; revert this; decide⟩
example : (logRun msgOnly (logOps ++ [.logf 0 4 b!"m"])).out = (logRun msgOnly logOps).out ++ [(7, b!"m\n")] := by decide +kernel
theorem logOps_logger : ∃ x, (logVals msgOnly logOps).logs[0]? = some x ∧ x.cfg.level = 4 ∧ x.cfg.writer = 7 ∧
    x.cfg.key b!"@level" = b!"lvl" ∧ x.cfg.key b!"error.message" = b!"error.message" ∧ x.err = some b!"bad" :=
  ⟨_, rfl, by decide +kernel, by decide +kernel, by decide +kernel, by decide +kernel, by decide +kernel⟩
example : ∃ t, (logRun msgOnly (logOps ++ [.logf 0 4 b!"m"])).out = (logRun msgOnly logOps).out ++ [(7, t)] := by
  obtain ⟨x, hx, hl, hw, -⟩ := logOps_logger
  obtain ⟨t, h⟩ := (C47_filter msgOnly logOps 0 4 b!"m" x hx).1
  rw [hl, hw] at h; exact ⟨t, h⟩
example : (logRun msgOnly (logOps ++ [.logf 0 5 b!"m"])).out = (logRun msgOnly logOps).out := by
  obtain ⟨x, hx, hl, -⟩ := logOps_logger
  obtain ⟨t, h⟩ := (C47_filter msgOnly logOps 0 5 b!"m" x hx).1
  rw [hl] at h; simpa using h
example : (logRun msgOnly (logOps ++ [.setLevel 0 6])).out = (logRun msgOnly logOps).out := C47_only msgOnly logOps (.setLevel 0 6) rfl
example : debugf msgOnly newCfg b!"now" b!"m" ≠ [] := by
  have h := (C47_debugf msgOnly newCfg (by decide) b!"now" b!"m").2 (by decide)
  rw [h]; simp
example : ∃ rec, (logRun msgOnly (logOps ++ [.logf 0 2 b!"m"])).out = (logRun msgOnly logOps).out ++ [(7, line msgOnly rec)] ∧
    rec b!"lvl" = some (.str b!"info") ∧ rec b!"error.message" = some (.str b!"bad") ∧ rec b!"message" = some (.str b!"m") := by
  obtain ⟨x, hx, hl, hw, hk, hk', he⟩ := logOps_logger
  obtain ⟨rec, h1, -, h3⟩ := C50_record msgOnly logOps 0 2 b!"m" x hx (by rw [hl]; decide)
  refine ⟨rec, by rw [h1, hw], ?_, ?_, ?_⟩
  · rw [h3, hk, hk', if_neg (by decide), if_pos rfl, hl]; rfl
  · rw [h3, hk', if_pos rfl, he]; rfl
  · rw [h3, hk, hk', if_neg (by decide), if_neg (by decide), if_pos rfl]
example : ∃ rec : Str → Option (FV Unit), rec b!"lvl" = some (.str b!"info") ∧ rec b!"message" = some (.str b!"m") := by
  obtain ⟨x, hx, hl, hw, hk, hk', he⟩ := logOps_logger
  obtain ⟨rec, -, h2, h3, -⟩ := C50_record_partial msgOnly logOps 0 b!"m" x hx (by rw [hk, hk']; decide) (by rw [hk]; decide)
    (by rw [hk']; decide)
  rw [hk, hl] at h2
  exact ⟨rec, h2, h3⟩
/-- The logger and a copy of it. -/
def logOps2 : List (LogOp Unit) := logOps ++ [.clone 0]
theorem logOps2_keeps (ops : List (LogOp Unit)) (op : LogOp Unit) (hne : actsOnLogger op ≠ some 0)
    (hs : (logRun msgOnly ops).val.logs[0]?.isSome) :
    (logRun msgOnly (ops ++ [op])).val.logs[0]? = (logRun msgOnly ops).val.logs[0]? := by
  obtain ⟨x, hx⟩ := Option.isSome_iff_exists.1 hs
  rw [hx]; exact (C49_isolated msgOnly ops op).1 0 x hx hne
/-- An action on the copy leaves the original as it is. -/
example : (logRun msgOnly (logOps2 ++ [.setLevel 1 6])).val.logs[0]? = (logRun msgOnly logOps2).val.logs[0]? :=
  logOps2_keeps logOps2 (.setLevel 1 6) (by decide) (by decide +kernel)

/-! #### Range headers -/

theorem means_2_5 : Means 10 b!" 2 - 5 " (.bytes 2 4) := (round_means 10 (by omega) (by omega) _ _).1 (by decide +kernel)
theorem means_10 : Means 10 b!"10-" .beyond := (round_means 10 (by omega) (by omega) _ _).1 (by decide +kernel)
theorem means_5_2 : ∀ e, ¬ Means 10 b!"5-2" e := by
  intro e h
  have := (round_means 10 (by omega) (by omega) _ _).2 h
  have hn : (rangeRound 10 b!"5-2").effect = none := by decide +kernel
  rw [hn] at this; cases this

example : parseRange (b!"bytes=" ++ joinByte 44 [b!" 2 - 5 ", b!"10-"]) 10 = .ok [⟨2, 4⟩] :=
  ((C55_exact 10 (by decide) (by decide)).2.2 [b!" 2 - 5 ", b!"10-"] (by decide) (by decide)).2.2 [.bytes 2 4, .beyond]
    (.cons means_2_5 (.cons means_10 .nil)) (Or.inr (by decide))
example : parseRange (b!"bytes=" ++ joinByte 44 [b!"10-"]) 10 = .error .noOverlap :=
  ((C55_exact 10 (by decide) (by decide)).2.2 [b!"10-"] (by decide) (by decide)).2.1 [.beyond] (.cons means_10 .nil) (by decide) (by decide)
example : parseRange (b!"bytes=" ++ joinByte 44 [b!" 2 - 5 ", b!"5-2"]) 10 = .error .invalid :=
  ((C55_exact 10 (by decide) (by decide)).2.2 [b!" 2 - 5 ", b!"5-2"] (by decide) (by decide)).1 ⟨b!"5-2", by decide, means_5_2⟩
example : parseRange b!"byte=0-" 10 = .error .invalid :=
  (C55_exact 10 (by decide) (by decide)).2.1 b!"byte=0-" (by decide) (fun ⟨t, h⟩ => by cases t <;> simp at h)
example : (0 : Int) ≤ 6 ∧ (0 : Int) ≤ 4 ∧ (6 : Int) + 4 ≤ 10 :=
  C54_bounds b!"bytes=0-99,-4" 10 (by decide) (by decide) [⟨0, 10⟩, ⟨6, 4⟩] (by decide +kernel) ⟨6, 4⟩ (by decide)
theorem texts_ex : Texts [b!"0-4", b!"-3"] [.fromTo 0 4, .last 3] := by
  refine .cons ?_ (by simp only [ByteSpec.Valid]; omega) (.cons ?_ (by simp only [ByteSpec.Valid]; omega) .nil)
  · exact ⟨b!"0", b!"4", (parts_iff _ _ _).1 ⟨b!"0", b!"4", by decide +kernel⟩,
      ⟨by decide, by decide⟩, ⟨by decide, by decide⟩, by decide +kernel, by decide +kernel⟩
  · exact ⟨b!"3", (parts_iff _ _ _).1 ⟨[], b!"3", by decide +kernel⟩, ⟨by decide, by decide⟩, by decide +kernel⟩
example : ∃ rs, Covers 10 [.fromTo 0 4, .last 3] rs ∧
    parseRange (b!"bytes=" ++ joinByte 44 [b!"0-4", b!"-3"]) 10 = .ok (rs.map fun p => ⟨p.1, p.2⟩) :=
  (C55_rfc 10 (by decide) (by decide) _ _ texts_ex (by simp) (by decide)).2
    ⟨.fromTo 0 4, by simp, 3, by simp [ByteSpec.Selects]⟩

/-! #### Entity tags -/

/-- A weak tag before a comma. -/
example : ∃ tag : ETag, tag.Valid ∧ b!"W/\"x\"" = tag.written ∧ Trimmed b!" W/\"x\", \"y\"" (b!"W/\"x\"" ++ b!", \"y\"") :=
  ((C58_scan b!" W/\"x\", \"y\"").1 b!"W/\"x\"" b!", \"y\"" (by decide)).1 (by decide +kernel)
example : ∀ tag : ETag, tag.Valid → ∀ r, ¬ Trimmed b!"\"x" (tag.written ++ r) := (C58_scan b!"\"x").2.1.1 (by decide +kernel)
/-- A response with a tag. -/
def tagged : HttpResp := HttpResp.fresh.set b!"Etag" b!"\"y\""
example : AnyMatch Strong b!"W/\"y\", \"y\"" (tagged.peek b!"Etag") := by
  obtain ⟨c, h, -, h2⟩ := C58_ifMatch (condReq b!"GET" b!"If-Match" b!"W/\"y\", \"y\"" [] []) tagged
  have : c = .true := by
    have h' : checkIfMatch (condReq b!"GET" b!"If-Match" b!"W/\"y\", \"y\"" [] []) tagged = .ret .true := by decide +kernel
    rw [h'] at h; cases h; rfl
  exact (h2.1 this).2
example : ¬ AnyMatch Strong b!"W/\"y\"" (tagged.peek b!"Etag") ∧ AnyMatch Weak b!"W/\"y\"" (tagged.peek b!"Etag") := by
  constructor
  · intro hm
    obtain ⟨c, h, -, h2⟩ := C58_ifMatch (condReq b!"GET" b!"If-Match" b!"W/\"y\"" [] []) tagged
    have h' : checkIfMatch (condReq b!"GET" b!"If-Match" b!"W/\"y\"" [] []) tagged = .ret .false := by decide +kernel
    rw [h'] at h; cases h
    have := h2.2 ⟨by decide +kernel, hm⟩
    cases this
  · obtain ⟨c, h, -, h2⟩ := C58_ifNoneMatch (condReq b!"GET" b!"If-None-Match" b!"W/\"y\"" [] []) tagged
    have h' : checkIfNoneMatch (condReq b!"GET" b!"If-None-Match" b!"W/\"y\"" [] []) tagged = .ret .false := by decide +kernel
    rw [h'] at h; cases h
    exact (h2.1 rfl).2

/-! #### Content -/

/-- A GET request for ranges. -/
def rangeReq (v : Str) : HttpReq := condReq b!"GET" b!"Range" v [] []

example : ∃ w', serveContent exLib (rangeReq b!"bytes=0-9,0-9") .fresh b!"a.html" 0 (some 10) exContent = .ret (w', none) ∧
    w'.status = 200 ∧ w'.body = exContent.data := by
  obtain ⟨w', h, h2, h3, -⟩ := C56_whole exLib (rangeReq b!"bytes=0-9,0-9") .fresh b!"a.html" 0 exContent b!"bytes=0-9,0-9" rfl
    (by decide) (by decide +kernel) [⟨0, 10⟩, ⟨0, 10⟩] (by decide +kernel) (Or.inr (by decide +kernel))
  exact ⟨w', h, h2, h3 (by decide)⟩
example : ∃ w', serveContent exLib (rangeReq b!"bytes=2-4") .fresh b!"a.html" 0 (some 10) exContent = .ret (w', none) ∧
    w'.status = 206 ∧ ContentRange 2 5 10 (w'.peek b!"Content-Range") := by
  obtain ⟨a, n, w', ha, hn, -, h, h2, -, -, -, -, -, h7⟩ := C56_single exLib (rangeReq b!"bytes=2-4") .fresh b!"a.html" 0 exContent
    b!"bytes=2-4" rfl (by decide) (by decide +kernel) 2 3 (by decide +kernel)
  have ha : a = 2 := by omega
  have hn : n = 3 := by omega
  subst ha hn
  exact ⟨w', h, h2, h7 (by decide)⟩
example : ∃ w', serveContent exLib (rangeReq b!"bytes=10-") .fresh b!"a.html" 0 (some 10) exContent =
    .ret (w', some (.range .noOverlap)) ∧ w'.status = 416 := by
  obtain ⟨w', h, h2, -⟩ := C56_unsatisfiable exLib (rangeReq b!"bytes=10-") .fresh b!"a.html" 0 exContent
    b!"bytes=10-" rfl (by decide +kernel) .noOverlap (by decide +kernel)
  exact ⟨w', h, h2⟩
example : ∃ w', serveContent exLib (rangeReq b!"bytes=2-4,-1") .fresh b!"a.html" 0 (some 10) exContent = .ret (w', none) ∧
    w'.status = 206 ∧ w'.peek b!"Content-Type" = b!"multipart/byteranges; boundary=BBBB" := by
  obtain ⟨_, _, _, w', -, -, h, h2, h3, -⟩ := C56_multi exLib (rangeReq b!"bytes=2-4,-1") .fresh b!"a.html" 0 exContent
    b!"bytes=2-4,-1" rfl (by decide) (by decide +kernel) rfl [⟨2, 3⟩, ⟨9, 1⟩] (by decide +kernel) (by decide) (by decide +kernel)
  exact ⟨w', h, h2, h3⟩
example : ∃ t parts w', UsedType exLib (rangeReq b!"bytes=2-4,-1") b!"a.html" exContent.data t ∧
    AreParts exContent.data t [(2, 3), (9, 1)] parts ∧
    serveContent exLib (rangeReq b!"bytes=2-4,-1") .fresh b!"a.html" 0 (some 10) exContent = .ret (w', none) := by
  obtain ⟨t, parts, w', h1, h2, h3, -⟩ := C68_parts exLib (rangeReq b!"bytes=2-4,-1") .fresh b!"a.html" 0 exContent
    b!"bytes=2-4,-1" rfl (by decide) (by decide +kernel) rfl [⟨2, 3⟩, ⟨9, 1⟩] (by decide +kernel) (by decide) (by decide +kernel)
  exact ⟨t, parts, w', h1, h2, h3⟩
example : ∃ w1 w2 e, serveContent exLib (rangeReq b!"bytes=2-4") .fresh b!"a.html" 0 (some 10) exContent = .ret (w1, e) ∧
    serveContent exLib (rangeReq b!"bytes=2-4").head .fresh b!"a.html" 0 (some 10) exContent = .ret (w2, e) ∧ w1.headers = w2.headers := by
  obtain ⟨w1, w2, e, h1, h2, -, h4, -⟩ := C56_head exLib (rangeReq b!"bytes=2-4") .fresh b!"a.html" 0 exContent rfl (some 10)
  exact ⟨w1, w2, e, h1, h2, h4⟩
/-- A name without an extension: the type comes from the bytes. -/
example : ∃ w' t, serveContent exLib (rangeReq []) .fresh b!"a" 0 (some 10) exContent = .ret (w', none) ∧
    w'.peek b!"Content-Type" = t ∧ FirstMatch rules b!"0123456789" t := by
  obtain ⟨w', t, h1, h2, -, h4⟩ := C68_type_partial exLib (rangeReq []) .fresh b!"a" 0 exContent [] rfl (by decide +kernel)
    (by decide +kernel) [] (by decide +kernel) (by decide)
  exact ⟨w', t, h1, h2, h4 (by decide)⟩
/-- The Content-Type header of the request removes that of the answer. -/
example : ∃ w', serveContent exLib (condReq b!"GET" b!"Content-Type" b!"x/y" [] []) .fresh b!"a.html" 0 (some 10) exContent = .ret (w', none) ∧
    w'.peek b!"Content-Type" = [] := by
  obtain ⟨w', h1, -, h3⟩ := C68_exact exLib (condReq b!"GET" b!"Content-Type" b!"x/y" [] []) .fresh b!"a.html" 0 exContent [] rfl
    (by decide +kernel) [] (by decide +kernel) (by decide)
  exact ⟨w', h1, h3 (by decide +kernel)⟩
example : ∃ w', serveContent exLib (rangeReq b!"bytes=2-4") .fresh b!"a.html" 5000000001 (some 10) exContent = .ret (w', none) ∧
    w'.peek b!"Last-Modified" = b!"date" :=
  ⟨_, rfl, C57_last_modified exLib (rangeReq b!"bytes=2-4") .fresh b!"a.html" 5000000001 10 exContent rfl
    ⟨by decide, by decide⟩ _ rfl (by decide +kernel)⟩

end Verif.Witness
