import Verif.Conformance.Basic
import Verif.Model.Raw

/-
The project's own tests of comments, in the model: `tests/json-struct-comments-test.cpp`.
-/

namespace JsonStruct.Conformance.Comments

structure DatabaseConfig where
  «host» : Bytes := []
  «port» : Int := 0
  «ssl_enabled» : Bool := false
  deriving DecidableEq

def DatabaseConfig.meta : Meta DatabaseConfig := .mk
  [Member.of [b!"host"] false (stringH .sse2) (·.«host») (fun v x => { x with «host» := v }),
   Member.of [b!"port"] false (intH ⟨32, true⟩) (·.«port») (fun v x => { x with «port» := v }),
   Member.of [b!"ssl_enabled"] false (boolH) (·.«ssl_enabled») (fun v x => { x with «ssl_enabled» := v })]
  []
def DatabaseConfig.hd : Handler DatabaseConfig := structH {} DatabaseConfig.meta

structure FeatureFlags where
  «beta_ui» : Bool := false
  «new_parser» : Bool := false
  deriving DecidableEq

def FeatureFlags.meta : Meta FeatureFlags := .mk
  [Member.of [b!"beta_ui"] false (boolH) (·.«beta_ui») (fun v x => { x with «beta_ui» := v }),
   Member.of [b!"new_parser"] false (boolH) (·.«new_parser») (fun v x => { x with «new_parser» := v })]
  []
def FeatureFlags.hd : Handler FeatureFlags := structH {} FeatureFlags.meta

structure AppConfig where
  «app_name» : Bytes := []
  «version» : Nat := 0
  «database» : DatabaseConfig := {}
  «preferences» : List (Bytes) := []
  «features» : FeatureFlags := {}
  deriving DecidableEq

def AppConfig.meta : Meta AppConfig := .mk
  [Member.of [b!"app_name"] false (stringH .sse2) (·.«app_name») (fun v x => { x with «app_name» := v }),
   Member.of [b!"version"] false (doubleH) (·.«version») (fun v x => { x with «version» := v }),
   Member.of [b!"database"] false (DatabaseConfig.hd) (·.«database») (fun v x => { x with «database» := v }),
   Member.of [b!"preferences"] false (vecH (stringH .sse2)) (·.«preferences») (fun v x => { x with «preferences» := v }),
   Member.of [b!"features"] false (FeatureFlags.hd) (·.«features») (fun v x => { x with «features» := v })]
  []
def AppConfig.hd : Handler AppConfig := structH {} AppConfig.meta

-- parse_struct_with_comments
example : reads (AppConfig.hd) b!"{\n  // Configuration settings for the application\n  \"app_name\": \"TestApp\", // The application name\n  \"version\": 1.42,\n  // Database configuration section\n  \"database\": {\n    \"host\": \"localhost\", // Database server host\n    // Port configuration - default is 5432\n    \"port\": 5432,\n    \"ssl_enabled\": true // Enable SSL connections\n  },\n  // Array of user preferences\n  \"preferences\": [\n    // First preference item\n    \"theme_dark\",\n    \"notifications_enabled\", // Enable notifications\n    // Last preference\n    \"auto_save\"\n  ],\n  // Optional feature flags\n  \"features\": {\n    // Beta features (experimental)\n    \"beta_ui\": false,\n    \"new_parser\": true // Use the new JSON parser\n    // End of feature flags\n  }\n  // End of configuration\n}" (o := { simd := .sse2, comments := true }) =
    some (.noError, { app_name := b!"TestApp", version := 4609073930643513016, database := { host := b!"localhost", port := 5432, ssl_enabled := true }, preferences := [b!"theme_dark", b!"notifications_enabled", b!"auto_save"], features := { beta_ui := false, new_parser := true } }, [], []) := by decide +kernel

structure DeepInner where
  «value» : Int := 0
  «name» : Bytes := []
  deriving DecidableEq

def DeepInner.meta : Meta DeepInner := .mk
  [Member.of [b!"value"] false (intH ⟨32, true⟩) (·.«value») (fun v x => { x with «value» := v }),
   Member.of [b!"name"] false (stringH .sse2) (·.«name») (fun v x => { x with «name» := v })]
  []
def DeepInner.hd : Handler DeepInner := structH {} DeepInner.meta

structure Inner where
  «inner» : DeepInner := {}
  deriving DecidableEq

def Inner.meta : Meta Inner := .mk
  [Member.of [b!"inner"] false (DeepInner.hd) (·.«inner») (fun v x => { x with «inner» := v })]
  []
def Inner.hd : Handler Inner := structH {} Inner.meta

structure NestedCommentStruct where
  «outer» : Inner := {}
  deriving DecidableEq

def NestedCommentStruct.meta : Meta NestedCommentStruct := .mk
  [Member.of [b!"outer"] false (Inner.hd) (·.«outer») (fun v x => { x with «outer» := v })]
  []
def NestedCommentStruct.hd : Handler NestedCommentStruct := structH {} NestedCommentStruct.meta

-- parse_nested_struct_with_comments
example : reads (NestedCommentStruct.hd) b!"{\n  // Top level comment\n  \"outer\": {\n    // Nested object comment\n    \"inner\": {\n      // Deep nested comment\n      \"value\": 42, // Inline comment in deep nesting\n      \"name\": \"test_string\"\n    }\n  }\n}" (o := { simd := .sse2, comments := true }) =
    some (.noError, { outer := { inner := { value := 42, name := b!"test_string" } } }, [], []) := by decide +kernel

structure MessageData where
  «message» : Bytes := []
  «priority» : Int := 0
  deriving DecidableEq

def MessageData.meta : Meta MessageData := .mk
  [Member.of [b!"message"] false (stringH .sse2) (·.«message») (fun v x => { x with «message» := v }),
   Member.of [b!"priority"] false (intH ⟨32, true⟩) (·.«priority») (fun v x => { x with «priority» := v })]
  []
def MessageData.hd : Handler MessageData := structH {} MessageData.meta

structure GenericContainer where
  «container_id» : Int := 0
  «data» : MessageData := {}
  deriving DecidableEq

def GenericContainer.meta : Meta GenericContainer := .mk
  [Member.of [b!"container_id"] false (intH ⟨32, true⟩) (·.«container_id») (fun v x => { x with «container_id» := v }),
   Member.of [b!"data"] false (MessageData.hd) (·.«data») (fun v x => { x with «data» := v })]
  []
def GenericContainer.hd : Handler GenericContainer := structH {} GenericContainer.meta

-- parse_template_struct_with_comments
example : reads (GenericContainer.hd) b!"{\n  // Generic container with type T\n  \"container_id\": 123,\n  // The contained data\n  \"data\": {\n    \"message\": \"Hello World\", // The message content\n    \"priority\": 5 // Message priority level\n  }\n}" (o := { simd := .sse2, comments := true }) =
    some (.noError, { container_id := 123, data := { message := b!"Hello World", priority := 5 } }, [], []) := by decide +kernel

structure BaseClass where
  «base_id» : Int := 0
  «base_name» : Bytes := []
  deriving DecidableEq

def BaseClass.meta : Meta BaseClass := .mk
  [Member.of [b!"base_id"] false (intH ⟨32, true⟩) (·.«base_id») (fun v x => { x with «base_id» := v }),
   Member.of [b!"base_name"] false (stringH .sse2) (·.«base_name») (fun v x => { x with «base_name» := v })]
  []
def BaseClass.hd : Handler BaseClass := structH {} BaseClass.meta

structure DerivedClass where
  superBaseClass : BaseClass := {}
  «derived_value» : Nat := 0
  «derived_flag» : Bool := false
  deriving DecidableEq

def DerivedClass.meta : Meta DerivedClass := .mk
  [Member.of [b!"derived_value"] false (doubleH) (·.«derived_value») (fun v x => { x with «derived_value» := v }),
   Member.of [b!"derived_flag"] false (boolH) (·.«derived_flag») (fun v x => { x with «derived_flag» := v })]
  [(b!"BaseClass", BaseClass.meta.up (·.superBaseClass) (fun v x => { x with superBaseClass := v }))]
def DerivedClass.hd : Handler DerivedClass := structH {} DerivedClass.meta

-- parse_inheritance_struct_with_comments
example : reads (DerivedClass.hd) b!"{\n  // Base class properties\n  \"base_id\": 42,\n  \"base_name\": \"BaseObject\",\n  // Derived class properties\n  \"derived_value\": 3.14,\n  \"derived_flag\": true // Boolean flag in derived class\n}" (o := { simd := .sse2, comments := true }) =
    some (.noError, { superBaseClass := { base_id := 42, base_name := b!"BaseObject" }, derived_value := 4614253070214989087, derived_flag := true }, [], []) := by decide +kernel

structure UserSettings where
  «theme» : Bytes := []
  «notifications» : Bool × Bool := (false, false)
  deriving DecidableEq

def UserSettings.meta : Meta UserSettings := .mk
  [Member.of [b!"theme"] false (stringH .sse2) (·.«theme») (fun v x => { x with «theme» := v }),
   Member.of [b!"notifications"] true (optionalCheckedH (boolH)) (·.«notifications») (fun v x => { x with «notifications» := v })]
  []
def UserSettings.hd : Handler UserSettings := structH {} UserSettings.meta

structure User where
  «name» : Bytes := []
  «age» : Int := 0
  «email» : Bytes × Bool := ([], false)
  «phone» : Bytes × Bool := ([], false)
  «settings» : UserSettings := {}
  deriving DecidableEq

def User.meta : Meta User := .mk
  [Member.of [b!"name"] false (stringH .sse2) (·.«name») (fun v x => { x with «name» := v }),
   Member.of [b!"age"] false (intH ⟨32, true⟩) (·.«age») (fun v x => { x with «age» := v }),
   Member.of [b!"email"] true (optionalCheckedH (stringH .sse2)) (·.«email») (fun v x => { x with «email» := v }),
   Member.of [b!"phone"] true (optionalCheckedH (stringH .sse2)) (·.«phone») (fun v x => { x with «phone» := v }),
   Member.of [b!"settings"] false (UserSettings.hd) (·.«settings») (fun v x => { x with «settings» := v })]
  []
def User.hd : Handler User := structH {} User.meta

-- parse_optional_members_with_comments
example : reads (User.hd) b!"{\n  // Required fields\n  \"name\": \"TestUser\",\n  \"age\": 25,\n  // Optional fields with comments\n  \"email\": \"test@example.com\", // User's email address\n  // Note: phone field is omitted intentionally\n  // \"phone\": \"+1234567890\",\n  \"settings\": {\n    \"theme\": \"dark\" // UI theme preference\n    // Other settings are using defaults\n  }\n}" (o := { simd := .sse2, comments := true }) =
    some (.noError, { name := b!"TestUser", age := 25, email := (b!"test@example.com", true), settings := { theme := b!"dark" } }, [], []) := by decide +kernel

structure SimpleItem where
  «id» : Int := 0
  «name» : Bytes := []
  «active» : Bool × Bool := (false, false)
  deriving DecidableEq

def SimpleItem.meta : Meta SimpleItem := .mk
  [Member.of [b!"id"] false (intH ⟨32, true⟩) (·.«id») (fun v x => { x with «id» := v }),
   Member.of [b!"name"] false (stringH .sse2) (·.«name») (fun v x => { x with «name» := v }),
   Member.of [b!"active"] true (optionalCheckedH (boolH)) (·.«active») (fun v x => { x with «active» := v })]
  []
def SimpleItem.hd : Handler SimpleItem := structH {} SimpleItem.meta

/-- Three calls of `parseTo` on one context: the errors and the values. -/
def three (h : Handler T) (c : Ctx) : Option (List (Err × T)) := do
  let (e1, v1, c) ← parseTo h 10000 h.init c
  let (e2, v2, c) ← parseTo h 10000 h.init c
  let (e3, v3, _) ← parseTo h 10000 h.init c
  some [(e1, v1), (e2, v2), (e3, v3)]

-- parse_multi_top_level_with_comments
example : three SimpleItem.hd (Ctx.onText { simd := .sse2, comments := true, ascii := true } {} b!"\n// First JSON object\n{ \"id\": 1, \"name\": \"First\" }\n// Second JSON object with more details\n{ \"id\": 2, \"name\": \"Second\", \"active\": true }\n// Final JSON object\n{ \"id\": 3, \"name\": \"Third\" }\n") =
    some [(.noError, { id := 1, name := b!"First" }), (.noError, { id := 2, name := b!"Second", active := (true, true) }), (.noError, { id := 3, name := b!"Third" })] := by decide +kernel

structure Employee where
  «name» : Bytes := []
  «department» : Bytes := []
  «salary» : Int := 0
  «skills» : List (Bytes) := []
  deriving DecidableEq

def Employee.meta : Meta Employee := .mk
  [Member.of [b!"name"] false (stringH .sse2) (·.«name») (fun v x => { x with «name» := v }),
   Member.of [b!"department"] false (stringH .sse2) (·.«department») (fun v x => { x with «department» := v }),
   Member.of [b!"salary"] false (intH ⟨32, true⟩) (·.«salary») (fun v x => { x with «salary» := v }),
   Member.of [b!"skills"] false (vecH (stringH .sse2)) (·.«skills») (fun v x => { x with «skills» := v })]
  []
def Employee.hd : Handler Employee := structH {} Employee.meta

structure Company where
  «employees» : List (Employee) := []
  deriving DecidableEq

def Company.meta : Meta Company := .mk
  [Member.of [b!"employees"] false (vecH (Employee.hd)) (·.«employees») (fun v x => { x with «employees» := v })]
  []
def Company.hd : Handler Company := structH {} Company.meta

-- parse_array_of_structs_with_comments
example : reads (Company.hd) b!"{\n  // Array of employee records\n  \"employees\": [\n    {\n      // First employee\n      \"name\": \"Alice\",\n      \"department\": \"Engineering\", // Software development\n      \"salary\": 75000,\n      \"skills\": [\"C++\", \"Python\", \"JavaScript\"] // Programming languages\n    },\n    {\n      // Second employee\n      \"name\": \"Bob\",\n      \"department\": \"Marketing\", // Sales and marketing\n      \"salary\": 65000,\n      \"skills\": [\"Communication\", \"Strategy\"] // Soft skills\n    }\n    // Could add more employees here\n  ]\n}" (o := { simd := .sse2, comments := true }) =
    some (.noError, { employees := [{ name := b!"Alice", department := b!"Engineering", salary := 75000, skills := [b!"C++", b!"Python", b!"JavaScript"] }, { name := b!"Bob", department := b!"Marketing", salary := 65000, skills := [b!"Communication", b!"Strategy"] }] }, [], []) := by decide +kernel

-- serialization_round_trip_with_comments
example : ((writes AppConfig.hd { app_name := b!"TestApp", version := 4609073930643513016, database := { host := b!"localhost", port := 5432, ssl_enabled := true }, preferences := [b!"theme_dark", b!"notifications_enabled", b!"auto_save"], features := { beta_ui := false, new_parser := true } }).bind fun t => reads AppConfig.hd t (o := { simd := .sse2, comments := true })) = some (.noError, { app_name := b!"TestApp", version := 4609073930643513016, database := { host := b!"localhost", port := 5432, ssl_enabled := true }, preferences := [b!"theme_dark", b!"notifications_enabled", b!"auto_save"], features := { beta_ui := false, new_parser := true } }, [], []) := by decide +kernel

-- error_when_comments_disabled
example : (reads AppConfig.hd b!"{\n  // Configuration settings for the application\n  \"app_name\": \"TestApp\", // The application name\n  \"version\": 1.42,\n  // Database configuration section\n  \"database\": {\n    \"host\": \"localhost\", // Database server host\n    // Port configuration - default is 5432\n    \"port\": 5432,\n    \"ssl_enabled\": true // Enable SSL connections\n  },\n  // Array of user preferences\n  \"preferences\": [\n    // First preference item\n    \"theme_dark\",\n    \"notifications_enabled\", // Enable notifications\n    // Last preference\n    \"auto_save\"\n  ],\n  // Optional feature flags\n  \"features\": {\n    // Beta features (experimental)\n    \"beta_ui\": false,\n    \"new_parser\": true // Use the new JSON parser\n    // End of feature flags\n  }\n  // End of configuration\n}").map (fun r => decide (r.1 = .noError)) = some false := by decide +kernel

structure Level4 where
  «value» : Bytes := []
  «array» : List (Bytes) := []
  deriving DecidableEq

def Level4.meta : Meta Level4 := .mk
  [Member.of [b!"value"] false (stringH .sse2) (·.«value») (fun v x => { x with «value» := v }),
   Member.of [b!"array"] false (vecH (rawH .any 7)) (·.«array») (fun v x => { x with «array» := v })]
  []
def Level4.hd : Handler Level4 := structH {} Level4.meta

structure Level3 where
  «level4» : Level4 := {}
  deriving DecidableEq

def Level3.meta : Meta Level3 := .mk
  [Member.of [b!"level4"] false (Level4.hd) (·.«level4») (fun v x => { x with «level4» := v })]
  []
def Level3.hd : Handler Level3 := structH {} Level3.meta

structure Level2 where
  «level3» : Level3 := {}
  deriving DecidableEq

def Level2.meta : Meta Level2 := .mk
  [Member.of [b!"level3"] false (Level3.hd) (·.«level3») (fun v x => { x with «level3» := v })]
  []
def Level2.hd : Handler Level2 := structH {} Level2.meta

structure Level1 where
  «level2» : Level2 := {}
  deriving DecidableEq

def Level1.meta : Meta Level1 := .mk
  [Member.of [b!"level2"] false (Level2.hd) (·.«level2») (fun v x => { x with «level2» := v })]
  []
def Level1.hd : Handler Level1 := structH {} Level1.meta

structure DeeplyNested where
  «level1» : Level1 := {}
  deriving DecidableEq

def DeeplyNested.meta : Meta DeeplyNested := .mk
  [Member.of [b!"level1"] false (Level1.hd) (·.«level1») (fun v x => { x with «level1» := v })]
  []
def DeeplyNested.hd : Handler DeeplyNested := structH {} DeeplyNested.meta

-- parse_deeply_nested_with_comments: the captured text keeps the comment
example : reads (DeeplyNested.hd) b!"{\n  // Level 1\n  \"level1\": {\n    // Level 2\n    \"level2\": {\n      // Level 3\n      \"level3\": {\n        // Level 4\n        \"level4\": {\n          // Level 5\n          \"value\": \"deeply_nested\", // Final value\n          \"array\": [\n            // Array in deep nesting\n            {\n              // Object in array in deep nesting\n              \"deep_array_obj\": true\n            }\n          ]\n        }\n      }\n    }\n  }\n}" (o := { simd := .sse2, comments := true }) =
    some (.noError, { level1 := { level2 := { level3 := { level4 := { value := b!"deeply_nested", array := [b!"{\n              // Object in array in deep nesting\n              \"deep_array_obj\": true\n            }"] } } } } }, [], []) := by decide +kernel

end JsonStruct.Conformance.Comments
