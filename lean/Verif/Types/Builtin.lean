import Verif.Types.Model

/-!
# The built-in operator table (`Projects/Core/Core/VirtualMachine/TypeSystem.cpp:81-857`)

Generated from the C++ source: one entry per `define` call, in source order.  `EnumerationType::TYPENAME` at design time is
the name `int` (Designtime/BuildInTypes/EnumerationType.cpp:19) and `UserType::TYPENAME` is `Object`
(Designtime/BuildInTypes/UserType.cpp:20).
-/

namespace Verif.Types

/-- One `define` call of the built-in table. -/
abbrev BRow := BT × Op × BT × BT

/-- `TypeSystem::initBool` (TypeSystem.cpp:94-156). -/
def initBool : List BRow := [
  (.bool, .ASSIGN, .bool, .bool), (.bool, .ASSIGN, .double, .bool), (.bool, .ASSIGN, .float, .bool),
  (.bool, .ASSIGN, .int16, .bool), (.bool, .ASSIGN, .int32, .bool), (.bool, .ASSIGN, .int64, .bool),
  (.bool, .ASSIGN, .string, .bool), (.bool, .AND, .bool, .bool), (.bool, .AND, .double, .bool),
  (.bool, .AND, .float, .bool), (.bool, .AND, .int16, .bool), (.bool, .AND, .int32, .bool),
  (.bool, .AND, .int64, .bool), (.bool, .AND, .string, .bool), (.bool, .NAND, .bool, .bool),
  (.bool, .NAND, .double, .bool), (.bool, .NAND, .float, .bool), (.bool, .NAND, .int16, .bool),
  (.bool, .NAND, .int32, .bool), (.bool, .NAND, .int64, .bool), (.bool, .NAND, .string, .bool),
  (.bool, .NOR, .bool, .bool), (.bool, .NOR, .double, .bool), (.bool, .NOR, .float, .bool),
  (.bool, .NOR, .int16, .bool), (.bool, .NOR, .int32, .bool), (.bool, .NOR, .int64, .bool),
  (.bool, .NOR, .string, .bool), (.bool, .OR, .bool, .bool), (.bool, .OR, .double, .bool),
  (.bool, .OR, .float, .bool), (.bool, .OR, .int16, .bool), (.bool, .OR, .int32, .bool), (.bool, .OR, .int64, .bool),
  (.bool, .OR, .string, .bool), (.bool, .COMPARE_EQUAL, .bool, .bool), (.bool, .COMPARE_UNEQUAL, .bool, .bool),
  (.bool, .TYPECAST, .bool, .bool), (.bool, .TYPECAST, .double, .double), (.bool, .TYPECAST, .float, .float),
  (.bool, .TYPECAST, .int16, .int16), (.bool, .TYPECAST, .int32, .int32), (.bool, .TYPECAST, .int64, .int64),
  (.bool, .TYPECAST, .string, .string)]

/-- `TypeSystem::initDouble` (TypeSystem.cpp:159-271). -/
def initDouble : List BRow := [
  (.double, .ASSIGN, .bool, .double), (.double, .ASSIGN, .double, .double), (.double, .ASSIGN, .float, .double),
  (.double, .ASSIGN, .int16, .double), (.double, .ASSIGN, .int32, .double), (.double, .ASSIGN, .int64, .double),
  (.double, .MATH_ADDITION, .double, .double), (.double, .MATH_ADDITION, .float, .double),
  (.double, .MATH_ADDITION, .int16, .double), (.double, .MATH_ADDITION, .int32, .double),
  (.double, .MATH_ADDITION, .int64, .double), (.double, .MATH_DIVIDE, .double, .double),
  (.double, .MATH_DIVIDE, .float, .double), (.double, .MATH_DIVIDE, .int16, .double),
  (.double, .MATH_DIVIDE, .int32, .double), (.double, .MATH_DIVIDE, .int64, .double),
  (.double, .MATH_MULTIPLY, .double, .double), (.double, .MATH_MULTIPLY, .float, .double),
  (.double, .MATH_MULTIPLY, .int16, .double), (.double, .MATH_MULTIPLY, .int32, .double),
  (.double, .MATH_MULTIPLY, .int64, .double), (.double, .MATH_SUBTRACT, .double, .double),
  (.double, .MATH_SUBTRACT, .float, .double), (.double, .MATH_SUBTRACT, .int16, .double),
  (.double, .MATH_SUBTRACT, .int32, .double), (.double, .MATH_SUBTRACT, .int64, .double),
  (.double, .AND, .bool, .bool), (.double, .AND, .double, .bool), (.double, .AND, .float, .bool),
  (.double, .AND, .int16, .bool), (.double, .AND, .int32, .bool), (.double, .AND, .int64, .bool),
  (.double, .AND, .string, .bool), (.double, .NAND, .bool, .bool), (.double, .NAND, .double, .bool),
  (.double, .NAND, .float, .bool), (.double, .NAND, .int16, .bool), (.double, .NAND, .int32, .bool),
  (.double, .NAND, .int64, .bool), (.double, .NAND, .string, .bool), (.double, .NOR, .bool, .bool),
  (.double, .NOR, .double, .bool), (.double, .NOR, .float, .bool), (.double, .NOR, .int16, .bool),
  (.double, .NOR, .int32, .bool), (.double, .NOR, .int64, .bool), (.double, .NOR, .string, .bool),
  (.double, .OR, .bool, .bool), (.double, .OR, .double, .bool), (.double, .OR, .float, .bool),
  (.double, .OR, .int16, .bool), (.double, .OR, .int32, .bool), (.double, .OR, .int64, .bool),
  (.double, .OR, .string, .bool), (.double, .COMPARE_EQUAL, .double, .bool), (.double, .COMPARE_EQUAL, .float, .bool),
  (.double, .COMPARE_EQUAL, .int16, .bool), (.double, .COMPARE_EQUAL, .int32, .bool),
  (.double, .COMPARE_EQUAL, .int64, .bool), (.double, .COMPARE_GREATER, .double, .bool),
  (.double, .COMPARE_GREATER, .float, .bool), (.double, .COMPARE_GREATER, .int16, .bool),
  (.double, .COMPARE_GREATER, .int32, .bool), (.double, .COMPARE_GREATER, .int64, .bool),
  (.double, .COMPARE_GREATER_EQUAL, .double, .bool), (.double, .COMPARE_GREATER_EQUAL, .float, .bool),
  (.double, .COMPARE_GREATER_EQUAL, .int16, .bool), (.double, .COMPARE_GREATER_EQUAL, .int32, .bool),
  (.double, .COMPARE_GREATER_EQUAL, .int64, .bool), (.double, .COMPARE_LESS, .double, .bool),
  (.double, .COMPARE_LESS, .float, .bool), (.double, .COMPARE_LESS, .int16, .bool),
  (.double, .COMPARE_LESS, .int32, .bool), (.double, .COMPARE_LESS, .int64, .bool),
  (.double, .COMPARE_LESS_EQUAL, .double, .bool), (.double, .COMPARE_LESS_EQUAL, .float, .bool),
  (.double, .COMPARE_LESS_EQUAL, .int16, .bool), (.double, .COMPARE_LESS_EQUAL, .int32, .bool),
  (.double, .COMPARE_LESS_EQUAL, .int64, .bool), (.double, .COMPARE_UNEQUAL, .double, .bool),
  (.double, .COMPARE_UNEQUAL, .float, .bool), (.double, .COMPARE_UNEQUAL, .int16, .bool),
  (.double, .COMPARE_UNEQUAL, .int32, .bool), (.double, .COMPARE_UNEQUAL, .int64, .bool),
  (.double, .TYPECAST, .bool, .bool), (.double, .TYPECAST, .double, .double), (.double, .TYPECAST, .float, .float),
  (.double, .TYPECAST, .int16, .int16), (.double, .TYPECAST, .int32, .int32), (.double, .TYPECAST, .int64, .int64),
  (.double, .TYPECAST, .string, .string), (.double, .MATH_ADDITION, .unary, .double),
  (.double, .MATH_SUBTRACT, .unary, .double)]

/-- `TypeSystem::initEnumeration` (TypeSystem.cpp:274-296). -/
def initEnumeration : List BRow := [
  (.int32, .ASSIGN, .int32, .int32), (.int32, .TYPECAST, .bool, .bool), (.int32, .TYPECAST, .double, .double),
  (.int32, .TYPECAST, .float, .float), (.int32, .TYPECAST, .int16, .int16), (.int32, .TYPECAST, .int32, .int32),
  (.int32, .TYPECAST, .int64, .int64), (.int32, .TYPECAST, .string, .string)]

/-- `TypeSystem::initFloat` (TypeSystem.cpp:302-414). -/
def initFloat : List BRow := [
  (.float, .ASSIGN, .bool, .float), (.float, .ASSIGN, .double, .float), (.float, .ASSIGN, .float, .float),
  (.float, .ASSIGN, .int16, .float), (.float, .ASSIGN, .int32, .float), (.float, .ASSIGN, .int64, .float),
  (.float, .MATH_ADDITION, .double, .float), (.float, .MATH_ADDITION, .float, .float),
  (.float, .MATH_ADDITION, .int16, .float), (.float, .MATH_ADDITION, .int32, .float),
  (.float, .MATH_ADDITION, .int64, .float), (.float, .MATH_DIVIDE, .double, .float),
  (.float, .MATH_DIVIDE, .float, .float), (.float, .MATH_DIVIDE, .int16, .float),
  (.float, .MATH_DIVIDE, .int32, .float), (.float, .MATH_DIVIDE, .int64, .float),
  (.float, .MATH_MULTIPLY, .double, .float), (.float, .MATH_MULTIPLY, .float, .float),
  (.float, .MATH_MULTIPLY, .int16, .float), (.float, .MATH_MULTIPLY, .int32, .float),
  (.float, .MATH_MULTIPLY, .int64, .float), (.float, .MATH_SUBTRACT, .double, .float),
  (.float, .MATH_SUBTRACT, .float, .float), (.float, .MATH_SUBTRACT, .int16, .float),
  (.float, .MATH_SUBTRACT, .int32, .float), (.float, .MATH_SUBTRACT, .int64, .float), (.float, .AND, .bool, .bool),
  (.float, .AND, .double, .bool), (.float, .AND, .float, .bool), (.float, .AND, .int16, .bool),
  (.float, .AND, .int32, .bool), (.float, .AND, .int64, .bool), (.float, .AND, .string, .bool),
  (.float, .NAND, .bool, .bool), (.float, .NAND, .double, .bool), (.float, .NAND, .float, .bool),
  (.float, .NAND, .int16, .bool), (.float, .NAND, .int32, .bool), (.float, .NAND, .int64, .bool),
  (.float, .NAND, .string, .bool), (.float, .NOR, .bool, .bool), (.float, .NOR, .double, .bool),
  (.float, .NOR, .float, .bool), (.float, .NOR, .int16, .bool), (.float, .NOR, .int32, .bool),
  (.float, .NOR, .int64, .bool), (.float, .NOR, .string, .bool), (.float, .OR, .bool, .bool),
  (.float, .OR, .double, .bool), (.float, .OR, .float, .bool), (.float, .OR, .int16, .bool),
  (.float, .OR, .int32, .bool), (.float, .OR, .int64, .bool), (.float, .OR, .string, .bool),
  (.float, .COMPARE_EQUAL, .double, .bool), (.float, .COMPARE_EQUAL, .float, .bool),
  (.float, .COMPARE_EQUAL, .int16, .bool), (.float, .COMPARE_EQUAL, .int32, .bool),
  (.float, .COMPARE_EQUAL, .int64, .bool), (.float, .COMPARE_GREATER, .double, .bool),
  (.float, .COMPARE_GREATER, .float, .bool), (.float, .COMPARE_GREATER, .int16, .bool),
  (.float, .COMPARE_GREATER, .int32, .bool), (.float, .COMPARE_GREATER, .int64, .bool),
  (.float, .COMPARE_GREATER_EQUAL, .double, .bool), (.float, .COMPARE_GREATER_EQUAL, .float, .bool),
  (.float, .COMPARE_GREATER_EQUAL, .int16, .bool), (.float, .COMPARE_GREATER_EQUAL, .int32, .bool),
  (.float, .COMPARE_GREATER_EQUAL, .int64, .bool), (.float, .COMPARE_LESS, .double, .bool),
  (.float, .COMPARE_LESS, .float, .bool), (.float, .COMPARE_LESS, .int16, .bool),
  (.float, .COMPARE_LESS, .int32, .bool), (.float, .COMPARE_LESS, .int64, .bool),
  (.float, .COMPARE_LESS_EQUAL, .double, .bool), (.float, .COMPARE_LESS_EQUAL, .float, .bool),
  (.float, .COMPARE_LESS_EQUAL, .int16, .bool), (.float, .COMPARE_LESS_EQUAL, .int32, .bool),
  (.float, .COMPARE_LESS_EQUAL, .int64, .bool), (.float, .COMPARE_UNEQUAL, .double, .bool),
  (.float, .COMPARE_UNEQUAL, .float, .bool), (.float, .COMPARE_UNEQUAL, .int16, .bool),
  (.float, .COMPARE_UNEQUAL, .int32, .bool), (.float, .COMPARE_UNEQUAL, .int64, .bool),
  (.float, .TYPECAST, .bool, .bool), (.float, .TYPECAST, .double, .double), (.float, .TYPECAST, .float, .float),
  (.float, .TYPECAST, .int16, .int16), (.float, .TYPECAST, .int32, .int32), (.float, .TYPECAST, .int64, .int64),
  (.float, .TYPECAST, .string, .string), (.float, .MATH_ADDITION, .unary, .float),
  (.float, .MATH_SUBTRACT, .unary, .float)]

/-- `TypeSystem::initInt16` (TypeSystem.cpp:417-507). -/
def initInt16 : List BRow := [
  (.int16, .ASSIGN, .int16, .int16), (.int16, .ASSIGN, .int32, .int16), (.int16, .ASSIGN, .int64, .int16),
  (.int16, .MATH_ADDITION, .double, .double), (.int16, .MATH_ADDITION, .float, .float),
  (.int16, .MATH_ADDITION, .int16, .int16), (.int16, .MATH_ADDITION, .int32, .int32),
  (.int16, .MATH_ADDITION, .int64, .int64), (.int16, .MATH_DIVIDE, .double, .double),
  (.int16, .MATH_DIVIDE, .float, .float), (.int16, .MATH_DIVIDE, .int16, .int16),
  (.int16, .MATH_DIVIDE, .int32, .int32), (.int16, .MATH_DIVIDE, .int64, .int64),
  (.int16, .MATH_MODULO, .int16, .int16), (.int16, .MATH_MODULO, .int32, .int32),
  (.int16, .MATH_MODULO, .int64, .int64), (.int16, .MATH_MULTIPLY, .double, .double),
  (.int16, .MATH_MULTIPLY, .float, .float), (.int16, .MATH_MULTIPLY, .int16, .int16),
  (.int16, .MATH_MULTIPLY, .int32, .int32), (.int16, .MATH_MULTIPLY, .int64, .int64),
  (.int16, .MATH_SUBTRACT, .double, .double), (.int16, .MATH_SUBTRACT, .float, .float),
  (.int16, .MATH_SUBTRACT, .int16, .int16), (.int16, .MATH_SUBTRACT, .int32, .int32),
  (.int16, .MATH_SUBTRACT, .int64, .int64), (.int16, .BITAND, .int16, .int16),
  (.int16, .BITCOMPLEMENT, .int16, .int16), (.int16, .BITOR, .int16, .int16), (.int16, .AND, .bool, .bool),
  (.int16, .AND, .double, .bool), (.int16, .AND, .float, .bool), (.int16, .AND, .int16, .bool),
  (.int16, .AND, .int32, .bool), (.int16, .AND, .int64, .bool), (.int16, .AND, .string, .bool),
  (.int16, .NAND, .bool, .bool), (.int16, .NAND, .double, .bool), (.int16, .NAND, .float, .bool),
  (.int16, .NAND, .int16, .bool), (.int16, .NAND, .int32, .bool), (.int16, .NAND, .int64, .bool),
  (.int16, .NAND, .string, .bool), (.int16, .NOR, .bool, .bool), (.int16, .NOR, .double, .bool),
  (.int16, .NOR, .float, .bool), (.int16, .NOR, .int16, .bool), (.int16, .NOR, .int32, .bool),
  (.int16, .NOR, .int64, .bool), (.int16, .NOR, .string, .bool), (.int16, .OR, .bool, .bool),
  (.int16, .OR, .double, .bool), (.int16, .OR, .float, .bool), (.int16, .OR, .int16, .bool),
  (.int16, .OR, .int32, .bool), (.int16, .OR, .int64, .bool), (.int16, .OR, .string, .bool),
  (.int16, .COMPARE_EQUAL, .int16, .bool), (.int16, .COMPARE_GREATER, .int16, .bool),
  (.int16, .COMPARE_GREATER_EQUAL, .int16, .bool), (.int16, .COMPARE_LESS, .int16, .bool),
  (.int16, .COMPARE_LESS_EQUAL, .int16, .bool), (.int16, .COMPARE_UNEQUAL, .int16, .bool),
  (.int16, .TYPECAST, .bool, .bool), (.int16, .TYPECAST, .double, .double), (.int16, .TYPECAST, .int32, .int32),
  (.int16, .TYPECAST, .float, .float), (.int16, .TYPECAST, .int16, .int16), (.int16, .TYPECAST, .int32, .int32),
  (.int16, .TYPECAST, .int64, .int64), (.int16, .TYPECAST, .string, .string),
  (.int16, .MATH_ADDITION, .unary, .int16), (.int16, .MATH_SUBTRACT, .unary, .int16)]

/-- `TypeSystem::initInt32` (TypeSystem.cpp:510-627). -/
def initInt32 : List BRow := [
  (.int32, .ASSIGN, .bool, .int32), (.int32, .ASSIGN, .double, .int32), (.int32, .ASSIGN, .float, .int32),
  (.int32, .ASSIGN, .int16, .int32), (.int32, .ASSIGN, .int32, .int32), (.int32, .ASSIGN, .int64, .int32),
  (.int32, .MATH_ADDITION, .double, .double), (.int32, .MATH_ADDITION, .float, .float),
  (.int32, .MATH_ADDITION, .int16, .int32), (.int32, .MATH_ADDITION, .int32, .int32),
  (.int32, .MATH_ADDITION, .int64, .int32), (.int32, .MATH_DIVIDE, .double, .double),
  (.int32, .MATH_DIVIDE, .float, .float), (.int32, .MATH_DIVIDE, .int16, .int32),
  (.int32, .MATH_DIVIDE, .int32, .int32), (.int32, .MATH_DIVIDE, .int64, .int32),
  (.int32, .MATH_MODULO, .int16, .int32), (.int32, .MATH_MODULO, .int32, .int32),
  (.int32, .MATH_MODULO, .int64, .int32), (.int32, .MATH_MULTIPLY, .double, .double),
  (.int32, .MATH_MULTIPLY, .float, .float), (.int32, .MATH_MULTIPLY, .int16, .int32),
  (.int32, .MATH_MULTIPLY, .int32, .int32), (.int32, .MATH_MULTIPLY, .int64, .int32),
  (.int32, .MATH_SUBTRACT, .double, .double), (.int32, .MATH_SUBTRACT, .float, .float),
  (.int32, .MATH_SUBTRACT, .int16, .int32), (.int32, .MATH_SUBTRACT, .int32, .int32),
  (.int32, .MATH_SUBTRACT, .int64, .int32), (.int32, .BITAND, .int32, .int32),
  (.int32, .BITCOMPLEMENT, .int32, .int32), (.int32, .BITOR, .int32, .int32), (.int32, .AND, .bool, .bool),
  (.int32, .AND, .double, .bool), (.int32, .AND, .float, .bool), (.int32, .AND, .int16, .bool),
  (.int32, .AND, .int32, .bool), (.int32, .AND, .int64, .bool), (.int32, .AND, .string, .bool),
  (.int32, .NAND, .bool, .bool), (.int32, .NAND, .double, .bool), (.int32, .NAND, .float, .bool),
  (.int32, .NAND, .int16, .bool), (.int32, .NAND, .int32, .bool), (.int32, .NAND, .int64, .bool),
  (.int32, .NAND, .string, .bool), (.int32, .NOR, .bool, .bool), (.int32, .NOR, .double, .bool),
  (.int32, .NOR, .float, .bool), (.int32, .NOR, .int16, .bool), (.int32, .NOR, .int32, .bool),
  (.int32, .NOR, .int64, .bool), (.int32, .NOR, .string, .bool), (.int32, .OR, .bool, .bool),
  (.int32, .OR, .double, .bool), (.int32, .OR, .float, .bool), (.int32, .OR, .int16, .bool),
  (.int32, .OR, .int32, .bool), (.int32, .OR, .int64, .bool), (.int32, .OR, .string, .bool),
  (.int32, .COMPARE_EQUAL, .double, .bool), (.int32, .COMPARE_EQUAL, .float, .bool),
  (.int32, .COMPARE_EQUAL, .int16, .bool), (.int32, .COMPARE_EQUAL, .int32, .bool),
  (.int32, .COMPARE_EQUAL, .int64, .bool), (.int32, .COMPARE_GREATER, .double, .bool),
  (.int32, .COMPARE_GREATER, .float, .bool), (.int32, .COMPARE_GREATER, .int16, .bool),
  (.int32, .COMPARE_GREATER, .int32, .bool), (.int32, .COMPARE_GREATER, .int64, .bool),
  (.int32, .COMPARE_GREATER_EQUAL, .double, .bool), (.int32, .COMPARE_GREATER_EQUAL, .float, .bool),
  (.int32, .COMPARE_GREATER_EQUAL, .int16, .bool), (.int32, .COMPARE_GREATER_EQUAL, .int32, .bool),
  (.int32, .COMPARE_GREATER_EQUAL, .int64, .bool), (.int32, .COMPARE_LESS, .double, .bool),
  (.int32, .COMPARE_LESS, .float, .bool), (.int32, .COMPARE_LESS, .int16, .bool),
  (.int32, .COMPARE_LESS, .int32, .bool), (.int32, .COMPARE_LESS, .int64, .bool),
  (.int32, .COMPARE_LESS_EQUAL, .double, .bool), (.int32, .COMPARE_LESS_EQUAL, .float, .bool),
  (.int32, .COMPARE_LESS_EQUAL, .int16, .bool), (.int32, .COMPARE_LESS_EQUAL, .int32, .bool),
  (.int32, .COMPARE_LESS_EQUAL, .int64, .bool), (.int32, .COMPARE_UNEQUAL, .double, .bool),
  (.int32, .COMPARE_UNEQUAL, .float, .bool), (.int32, .COMPARE_UNEQUAL, .int16, .bool),
  (.int32, .COMPARE_UNEQUAL, .int32, .bool), (.int32, .COMPARE_UNEQUAL, .int64, .bool),
  (.int32, .TYPECAST, .bool, .bool), (.int32, .TYPECAST, .double, .double), (.int32, .TYPECAST, .int32, .int32),
  (.int32, .TYPECAST, .float, .float), (.int32, .TYPECAST, .int16, .int16), (.int32, .TYPECAST, .int32, .int32),
  (.int32, .TYPECAST, .int64, .int64), (.int32, .TYPECAST, .string, .string),
  (.int32, .MATH_ADDITION, .unary, .int32), (.int32, .MATH_SUBTRACT, .unary, .int32)]

/-- `TypeSystem::initInt64` (TypeSystem.cpp:630-747). -/
def initInt64 : List BRow := [
  (.int64, .ASSIGN, .bool, .int64), (.int64, .ASSIGN, .double, .int64), (.int64, .ASSIGN, .float, .int64),
  (.int64, .ASSIGN, .int16, .int64), (.int64, .ASSIGN, .int32, .int64), (.int64, .ASSIGN, .int64, .int64),
  (.int64, .MATH_ADDITION, .double, .double), (.int64, .MATH_ADDITION, .float, .float),
  (.int64, .MATH_ADDITION, .int16, .int64), (.int64, .MATH_ADDITION, .int32, .int64),
  (.int64, .MATH_ADDITION, .int64, .int64), (.int64, .MATH_DIVIDE, .double, .double),
  (.int64, .MATH_DIVIDE, .float, .float), (.int64, .MATH_DIVIDE, .int16, .int64),
  (.int64, .MATH_DIVIDE, .int32, .int64), (.int64, .MATH_DIVIDE, .int64, .int64),
  (.int64, .MATH_MODULO, .int16, .int64), (.int64, .MATH_MODULO, .int32, .int64),
  (.int64, .MATH_MODULO, .int64, .int64), (.int64, .MATH_MULTIPLY, .double, .double),
  (.int64, .MATH_MULTIPLY, .float, .float), (.int64, .MATH_MULTIPLY, .int16, .int64),
  (.int64, .MATH_MULTIPLY, .int32, .int64), (.int64, .MATH_MULTIPLY, .int64, .int64),
  (.int64, .MATH_SUBTRACT, .double, .double), (.int64, .MATH_SUBTRACT, .float, .float),
  (.int64, .MATH_SUBTRACT, .int16, .int64), (.int64, .MATH_SUBTRACT, .int32, .int64),
  (.int64, .MATH_SUBTRACT, .int64, .int64), (.int64, .BITAND, .int64, .int64),
  (.int64, .BITCOMPLEMENT, .int64, .int64), (.int64, .BITOR, .int64, .int64), (.int64, .AND, .bool, .bool),
  (.int64, .AND, .double, .bool), (.int64, .AND, .float, .bool), (.int64, .AND, .int16, .bool),
  (.int64, .AND, .int32, .bool), (.int64, .AND, .int64, .bool), (.int64, .AND, .string, .bool),
  (.int64, .NAND, .bool, .bool), (.int64, .NAND, .double, .bool), (.int64, .NAND, .float, .bool),
  (.int64, .NAND, .int16, .bool), (.int64, .NAND, .int32, .bool), (.int64, .NAND, .int64, .bool),
  (.int64, .NAND, .string, .bool), (.int64, .NOR, .bool, .bool), (.int64, .NOR, .double, .bool),
  (.int64, .NOR, .float, .bool), (.int64, .NOR, .int16, .bool), (.int64, .NOR, .int32, .bool),
  (.int64, .NOR, .int64, .bool), (.int64, .NOR, .string, .bool), (.int64, .OR, .bool, .bool),
  (.int64, .OR, .double, .bool), (.int64, .OR, .float, .bool), (.int64, .OR, .int16, .bool),
  (.int64, .OR, .int32, .bool), (.int64, .OR, .int64, .bool), (.int64, .OR, .string, .bool),
  (.int64, .COMPARE_EQUAL, .double, .bool), (.int64, .COMPARE_EQUAL, .float, .bool),
  (.int64, .COMPARE_EQUAL, .int16, .bool), (.int64, .COMPARE_EQUAL, .int32, .bool),
  (.int64, .COMPARE_EQUAL, .int64, .bool), (.int64, .COMPARE_GREATER, .double, .bool),
  (.int64, .COMPARE_GREATER, .float, .bool), (.int64, .COMPARE_GREATER, .int16, .bool),
  (.int64, .COMPARE_GREATER, .int32, .bool), (.int64, .COMPARE_GREATER, .int64, .bool),
  (.int64, .COMPARE_GREATER_EQUAL, .double, .bool), (.int64, .COMPARE_GREATER_EQUAL, .float, .bool),
  (.int64, .COMPARE_GREATER_EQUAL, .int16, .bool), (.int64, .COMPARE_GREATER_EQUAL, .int32, .bool),
  (.int64, .COMPARE_GREATER_EQUAL, .int64, .bool), (.int64, .COMPARE_LESS, .double, .bool),
  (.int64, .COMPARE_LESS, .float, .bool), (.int64, .COMPARE_LESS, .int16, .bool),
  (.int64, .COMPARE_LESS, .int32, .bool), (.int64, .COMPARE_LESS, .int64, .bool),
  (.int64, .COMPARE_LESS_EQUAL, .double, .bool), (.int64, .COMPARE_LESS_EQUAL, .float, .bool),
  (.int64, .COMPARE_LESS_EQUAL, .int16, .bool), (.int64, .COMPARE_LESS_EQUAL, .int32, .bool),
  (.int64, .COMPARE_LESS_EQUAL, .int64, .bool), (.int64, .COMPARE_UNEQUAL, .double, .bool),
  (.int64, .COMPARE_UNEQUAL, .float, .bool), (.int64, .COMPARE_UNEQUAL, .int16, .bool),
  (.int64, .COMPARE_UNEQUAL, .int32, .bool), (.int64, .COMPARE_UNEQUAL, .int64, .bool),
  (.int64, .TYPECAST, .bool, .bool), (.int64, .TYPECAST, .double, .double), (.int64, .TYPECAST, .int32, .int32),
  (.int64, .TYPECAST, .float, .float), (.int64, .TYPECAST, .int16, .int16), (.int64, .TYPECAST, .int32, .int32),
  (.int64, .TYPECAST, .int64, .int64), (.int64, .TYPECAST, .string, .string),
  (.int64, .MATH_ADDITION, .unary, .int64), (.int64, .MATH_SUBTRACT, .unary, .int64)]

/-- `TypeSystem::initObject` (TypeSystem.cpp:750-769). -/
def initObject : List BRow := [
  (.object, .ASSIGN, .object, .object), (.object, .COMPARE_EQUAL, .object, .object),
  (.object, .COMPARE_UNEQUAL, .object, .object), (.object, .TYPECAST, .object, .object)]

/-- `TypeSystem::initString` (TypeSystem.cpp:775-853). -/
def initString : List BRow := [
  (.string, .ASSIGN, .bool, .string), (.string, .ASSIGN, .double, .string), (.string, .ASSIGN, .float, .string),
  (.string, .ASSIGN, .int16, .string), (.string, .ASSIGN, .int32, .string), (.string, .ASSIGN, .int64, .string),
  (.string, .ASSIGN, .string, .string), (.string, .MATH_ADDITION, .bool, .string),
  (.string, .MATH_ADDITION, .double, .string), (.string, .MATH_ADDITION, .float, .string),
  (.string, .MATH_ADDITION, .int16, .string), (.string, .MATH_ADDITION, .int32, .string),
  (.string, .MATH_ADDITION, .int64, .string), (.string, .MATH_ADDITION, .string, .string),
  (.string, .AND, .bool, .bool), (.string, .AND, .double, .bool), (.string, .AND, .float, .bool),
  (.string, .AND, .int16, .bool), (.string, .AND, .int32, .bool), (.string, .AND, .int32, .bool),
  (.string, .AND, .string, .bool), (.string, .NAND, .bool, .bool), (.string, .NAND, .double, .bool),
  (.string, .NAND, .float, .bool), (.string, .NAND, .int16, .bool), (.string, .NAND, .int32, .bool),
  (.string, .NAND, .int64, .bool), (.string, .NAND, .string, .bool), (.string, .NOR, .bool, .bool),
  (.string, .NOR, .double, .bool), (.string, .NOR, .float, .bool), (.string, .NOR, .int16, .bool),
  (.string, .NOR, .int32, .bool), (.string, .NOR, .int64, .bool), (.string, .NOR, .string, .bool),
  (.string, .OR, .bool, .bool), (.string, .OR, .double, .bool), (.string, .OR, .float, .bool),
  (.string, .OR, .int16, .bool), (.string, .OR, .int32, .bool), (.string, .OR, .int64, .bool),
  (.string, .OR, .string, .bool), (.string, .COMPARE_EQUAL, .string, .bool),
  (.string, .COMPARE_GREATER, .string, .bool), (.string, .COMPARE_GREATER_EQUAL, .string, .bool),
  (.string, .COMPARE_LESS, .string, .bool), (.string, .COMPARE_LESS_EQUAL, .string, .bool),
  (.string, .COMPARE_UNEQUAL, .string, .bool), (.string, .OPERATOR_SHIFT_LEFT, .bool, .string),
  (.string, .OPERATOR_SHIFT_LEFT, .double, .string), (.string, .OPERATOR_SHIFT_LEFT, .float, .string),
  (.string, .OPERATOR_SHIFT_LEFT, .int16, .string), (.string, .OPERATOR_SHIFT_LEFT, .int32, .string),
  (.string, .OPERATOR_SHIFT_LEFT, .int64, .string), (.string, .OPERATOR_SHIFT_LEFT, .string, .string),
  (.string, .TYPECAST, .bool, .bool), (.string, .TYPECAST, .double, .double), (.string, .TYPECAST, .float, .float),
  (.string, .TYPECAST, .int16, .int16), (.string, .TYPECAST, .int32, .int32), (.string, .TYPECAST, .int64, .int64),
  (.string, .TYPECAST, .string, .string)]

/-- `TypeSystem::init` (TypeSystem.cpp:81-92): the order of the calls. -/
def builtinRows : List BRow :=
  initBool ++ initDouble ++ initEnumeration ++ initFloat ++ initInt16 ++ initInt32 ++ initInt64 ++ initObject ++ initString

/-- The registrations of the built-in table. -/
def builtinRegs : List Reg := builtinRows.map fun (l, o, r, t) => ⟨.b l, o, .b r, .b t⟩

/-- The table after `TypeSystem::init`. -/
def builtinTable : Table := registerAll builtinRegs []

end Verif.Types
